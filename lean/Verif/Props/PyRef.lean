import Verif.PyRefObjLemmas
import Verif.Props.ToPyObj
import Verif.Props.SvExpr
/-!
# C93, C94: reference counts in the conversion to Python

`net s t` is the number of references to the Python object `t` that the C++ code owns.
-/
namespace Verif.PyRef
open Verif Spec Vhdl

/-- No object made yet, no reference owned. -/
def start : St := ⟨0, []⟩

/-! ## C93: references after a successful conversion -/

/-- C93: the conversion with reference counts ends as `toPyO` in `Verif/ToPyObj.lean` does: with a Python object or with the same failure. -/
theorem C93_same_outcome (dec : Str → Option Str) (ptr : FnHead → Bool) (o : Obj) (s : St) :
    ((∃ r, (objR dec ptr o s).2 = .ok r) ↔ ∃ p, toPyO dec o = .ok p) ∧ ∀ e, (objR dec ptr o s).2 = .error e ↔ toPyO dec o = .error e := by
  have h := objR_runs (dec := dec) (ptr := ptr) o s
  cases hv : toPyO dec o with
  | ok p =>
    rw [hv] at h
    obtain ⟨s', r, _, h, -⟩ := h
    rw [h]; simp
  | error e =>
    rw [hv] at h
    obtain ⟨s', h, -⟩ := h
    rw [h]; simp

/-- C93: the conversion of an expression without type definitions leaves exactly one reference: the one to the result. -/
theorem C93_expression (dec : Str → Option Str) (e : Expr) (h : noDef e) (p : Py) (hp : toPy dec e = .ok p) (s : St) :
    ∃ s' r, exprR dec e s = (s', .ok r) ∧ ∀ t, net s' t = net s t + if r = t then 1 else 0 := by
  have g := exprR_runs (dec := dec) e s
  rw [hp] at g
  obtain ⟨s', r, L, h1, -, h2, -, h3, -⟩ := g
  rw [noDef_leaks e h] at h2
  have : L = [] := List.eq_nil_of_length_eq_zero h2
  subst this
  refine ⟨s', r, h1, fun t => ?_⟩
  rw [h3 t]; simp [one]

/-- `a + 2` -/
example : noDef (.op none .ADD [.id none (c! "a"), .int none (.ofBig (.ofInt 2))]) ∧
    ∃ p, toPy some (.op none .ADD [.id none (c! "a"), .int none (.ofBig (.ofInt 2))]) = .ok p :=
  ⟨by simp [noDef, noDefs], _, rfl⟩

/-- C93: so does the conversion of a variable, signal, port or generic whose type and value have no type definitions. -/
theorem C93_definition (dec : Str → Option Str) (ptr : FnHead → Bool) (d : IdDef) (h : noDef d.type ∧ noDef d.value) (p : PyO)
    (hp : toPyO dec (.id d) = .ok p) (s : St) :
    ∃ s' r, objR dec ptr (.id d) s = (s', .ok r) ∧ ∀ t, net s' t = net s t + if r = t then 1 else 0 := by
  have g := objR_runs (dec := dec) (ptr := ptr) (.id d) s
  rw [hp] at g
  obtain ⟨s', r, L, h1, -, h2, -, h3, -⟩ := g
  simp only [leaks, leaksId, noDef_leaks _ h.1, noDef_leaks _ h.2] at h2
  have : L = [] := List.eq_nil_of_length_eq_zero h2
  subst this
  refine ⟨s', r, h1, fun t => ?_⟩
  rw [h3 t]; simp [one]

example : ∃ p, toPyO some (.id { name := c! "a", type := .id none (c! "integer"), value := .null }) = .ok p := ⟨_, by simp only [toPyO]; rfl⟩

/-- C93, what holds of it: after a successful conversion no reference is missing and there are exactly `leaks` too many, none of them
to an object that had been made before. Missing: `leaks` is 0 only for some objects, see the theorems below. -/
theorem C93_object_partial (dec : Str → Option Str) (ptr : FnHead → Bool) (o : Obj) (p : PyO) (hp : toPyO dec o = .ok p) (s : St) :
    ∃ s' r leaked, objR dec ptr o s = (s', .ok r) ∧ List.length leaked = leaks ptr o ∧ (∀ n < s.next, Ref.obj n ∉ leaked) ∧
      ∀ t, net s' t = net s t + (if r = t then 1 else 0) + leaked.count t := by
  have g := objR_runs (dec := dec) (ptr := ptr) o s
  rw [hp] at g
  obtain ⟨s', r, L, h1, -, h2, h3, h4, -⟩ := g
  exact ⟨s', r, L, h1, h2, fun n hn hm => h3 _ hm ⟨n, rfl, hn⟩, h4⟩

theorem context_bind (dec : Str → Option Str) (ptr : FnHead → Bool) (os : List Obj) :
    ∃ s1 : St, s1.next = 1 ∧ net s1 (.obj 0) = 1 ∧ net s1 (.attr (.obj 0) (c! "objs")) = 1 ∧
      contextR dec ptr os start = (onFail (objsR dec ptr (.attr (.obj 0) (c! "objs")) os) (decref (.attr (.obj 0) (c! "objs"))) >>= fun _ =>
        pure (Ref.obj 0)) s1 :=
  ⟨⟨1, [(.attr (.obj 0) (c! "objs"), 1), (.obj 0, 1)]⟩, rfl, by decide +kernel, by decide +kernel, rfl⟩

theorem outcome_context (dec : Str → Option Str) (os : List Obj) : st (toPyContext dec os) = st (toPyOs dec os) := st_map _ _

/-- C93 is violated by every result of the converter: the list `objs` of the context is never freed, because a reference to it is
never given up. -/
theorem C93_violated_context (dec : Str → Option Str) (ptr : FnHead → Bool) (os : List Obj) (p : PyO) (hp : toPyContext dec os = .ok p) :
    ∃ s' r, contextR dec ptr os start = (s', .ok r) ∧ net s' r ≥ 1 ∧ net s' (.attr r (c! "objs")) ≥ 1 := by
  obtain ⟨s1, h1, h2, h3, h4⟩ := context_bind dec ptr os
  have g := objsR_loop (dec := dec) (ptr := ptr) (.attr (.obj 0) (c! "objs")) os s1
  rw [← outcome_context, hp] at g
  obtain ⟨s', L, g1, -, -, -, g2⟩ := g
  refine ⟨s', .obj 0, by rw [h4, bind_okM (onFail_ok g1)]; rfl, ?_, ?_⟩
  · rw [g2, h2]; omega
  · rw [g2, h3]; omega

/-- The file of `Verif/Props/VhdlUnit.lean`. -/
example : ∃ os p, Vhdl.visitDesignFile false exFile = .ok os ∧ toPyContext some os = .ok p := by
  obtain ⟨os, h⟩ := exFile_ok
  obtain ⟨p, hp⟩ := (C91_vhdl_file_iff some exFile os h).2 ⟨exFile_no_null, fun s _ => ⟨_, rfl⟩⟩
  exact ⟨os, p, h, hp⟩

/-- Statements other than expressions. -/
def isStm : Obj → Prop
  | .assign _ _ _ _ _ _ | .block _ _ _ | .case _ _ _ _ _ _ | .for_ _ _ _ _ _ | .forIn _ _ _ _ | .repeat_ _ _ _ | .while_ _ _ _
  | .if_ _ _ _ _ _ | .process _ _ _ _ | .break_ _ | .continue_ _ | .nop _ | .import_ _ _ | .return_ _ _ | .wait _ _ => True
  | _ => False

/-- C93 is violated by every statement that is not an expression: at least one reference (to its list of labels) is never given up. -/
theorem C93_violated_statement (dec : Str → Option Str) (ptr : FnHead → Bool) (o : Obj) (ho : isStm o) (p : PyO) (hp : toPyO dec o = .ok p) :
    ∃ s' r t, objR dec ptr o start = (s', .ok r) ∧ net s' t > if r = t then 1 else 0 := by
  obtain ⟨s', r, L, h1, h2, -, h3⟩ := C93_object_partial dec ptr o p hp start
  have : 0 < L.length := by
    rw [h2]
    cases o <;> simp only [isStm, leaks] at ho ⊢ <;> omega
  obtain ⟨t, ht⟩ := List.exists_mem_of_length_pos this
  refine ⟨s', r, t, h1, ?_⟩
  have := List.count_pos_iff.2 ht
  have h0 : net start t = 0 := rfl
  rw [h3 t, h0]
  omega

/-- `null;` -/
example : isStm (.nop {}) ∧ ∃ p, toPyO some (.nop {}) = .ok p := ⟨trivial, _, by simp only [toPyO]; rfl⟩

/-- C93 is violated by every declaration of an entity, component or module: one reference is left for each of its three lists. -/
theorem C93_violated_unit (dec : Str → Option Str) (ptr : FnHead → Bool) (n : Str) (g p : List IdDef) (l : List Obj) (q : PyO)
    (hq : toPyO dec (.modDec n g p l) = .ok q) :
    ∃ s' r leaked, objR dec ptr (.modDec n g p l) start = (s', .ok r) ∧ List.length leaked ≥ 3 ∧
      ∀ t, net s' t = (if r = t then 1 else 0) + leaked.count t := by
  obtain ⟨s', r, L, h1, h2, -, h3⟩ := C93_object_partial dec ptr _ q hq start
  refine ⟨s', r, L, h1, by rw [h2]; simp only [leaks]; omega, fun t => ?_⟩
  have h0 : net start t = 0 := rfl
  rw [h3 t, h0]; omega

example : ∃ p, toPyO some (.modDec (c! "e") [] [] []) = .ok p := ⟨_, by simp only [toPyO, toPyOs]; rfl⟩

/-- C93 is violated by enumerations: the text of every enumerator and its value (here `None`) is never given up. -/
theorem C93_violated_enum (dec : Str → Option Str) (p : Option CodePos) (nm : Str) (b : Expr) (ns : List Str) (q : Py)
    (hq : toPy dec (.enumDef p nm b (ns.map some) (ns.map fun _ => .null)) = .ok q) :
    ∃ s' r leaked, exprR dec (.enumDef p nm b (ns.map some) (ns.map fun _ => .null)) start = (s', .ok r) ∧
      List.length leaked = 1 + 2 * ns.length ∧ ∀ t, net s' t = (if r = t then 1 else 0) + leaked.count t := by
  have g := exprR_runs (dec := dec) (.enumDef p nm b (ns.map some) (ns.map fun _ => .null)) start
  rw [hq] at g
  obtain ⟨s', r, L, h1, -, h2, -, h3, -⟩ := g
  refine ⟨s', r, L, h1, ?_, fun t => ?_⟩
  · rw [h2, leaksE]
    congr 1
    clear hq h2 h3 h1
    induction ns with
    | nil => simp [leaksPs]
    | cons n ns ih => simp only [List.map_cons, leaksPs, ih, leaksE, List.length_cons]; omega
  · have h0 : net start t = 0 := rfl
    rw [h3 t, h0]; simp [one]

/-- `(a, b)` -/
example : ∃ q, toPy some (.enumDef none (c! "t") .null ([c! "a", c! "b"].map some) ([c! "a", c! "b"].map fun _ => .null)) = .ok q := ⟨_, rfl⟩

/-! ## C94: references after a failing conversion -/

/-- C94, what holds of it: if a definition, expression or one of some statements cannot be converted, the conversion leaves all
reference counts as they were. Missing: the other objects, see below. -/
theorem C94_clean_partial (dec : Str → Option Str) (ptr : FnHead → Bool) (o : Obj) (hc : clean dec o) (e : PyErr) (he : e ≠ .ub)
    (h : toPyO dec o = .error e) (s : St) : ∃ s', objR dec ptr o s = (s', .error e) ∧ ∀ t, net s' t = net s t := by
  have g := objR_runs (dec := dec) (ptr := ptr) o s
  rw [h] at g
  obtain ⟨s', h1, -, h2⟩ := g
  exact ⟨s', h1, fun t => h2 he t (.inl hc)⟩

/-- `return a + {};` of SystemVerilog. -/
example : clean some (.return_ {} (.op none .ADD [.id none (c! "a"), .null])) ∧
    toPyO some (.return_ {} (.op none .ADD [.id none (c! "a"), .null])) = .error .value :=
  ⟨⟨by simp [noDef, noDefs], [], rfl⟩, by simp only [toPyO]; rfl⟩

/-- C94: expressions without type definitions leave all reference counts as they were. -/
theorem C94_expression (dec : Str → Option Str) (e : Expr) (h : noDef e) (x : PyErr) (hx : toPy dec e = .error x) (s : St) :
    ∃ s', exprR dec e s = (s', .error x) ∧ (x ≠ .ub → ∀ t, net s' t = net s t) := by
  have g := exprR_runs (dec := dec) e s
  rw [hx] at g
  obtain ⟨s', h1, -, h2⟩ := g
  exact ⟨s', h1, fun he t => h2 he t (.inl h)⟩

/-- An identifier that is not UTF-8. -/
example : noDef (.arr none [.id none (c! "a"), .id none (c! "b")]) ∧
    toPy (fun s => if s = c! "b" then none else some s) (.arr none [.id none (c! "a"), .id none (c! "b")]) = .error .unicode :=
  ⟨by simp [noDef, noDefs], rfl⟩

/-- C94, what holds of it for all objects: a failing conversion does not change the counts of objects made before it started. -/
theorem C94_earlier_partial (dec : Str → Option Str) (ptr : FnHead → Bool) (o : Obj) (e : PyErr) (he : e ≠ .ub) (h : toPyO dec o = .error e)
    (s : St) : ∃ s', objR dec ptr o s = (s', .error e) ∧ ∀ n < s.next, net s' (.obj n) = net s (.obj n) := by
  have g := objR_runs (dec := dec) (ptr := ptr) o s
  rw [h] at g
  obtain ⟨s', h1, -, h2⟩ := g
  exact ⟨s', h1, fun n hn => h2 he _ (.inr ⟨n, rfl, hn⟩)⟩

example : toPyO some (.wait {} [.null]) = .error .value := by simp only [toPyO]; rfl

/-- C94 is violated by every conversion that raises an exception: the context is never freed, and the reference to its list `objs` is given
up twice although it is owned once, so the list is freed while the context still uses it. -/
theorem C94_violated_context (dec : Str → Option Str) (ptr : FnHead → Bool) (os : List Obj) (e : PyErr) (he : e ≠ .ub)
    (h : toPyContext dec os = .error e) :
    ∃ s', contextR dec ptr os start = (s', .error e) ∧ net s' (.obj 0) = 1 ∧ net s' (.attr (.obj 0) (c! "objs")) = -1 := by
  obtain ⟨s1, h1, h2, h3, h4⟩ := context_bind dec ptr os
  have g := objsR_loop (dec := dec) (ptr := ptr) (.attr (.obj 0) (c! "objs")) os s1
  rw [← outcome_context, h] at g
  obtain ⟨s', g1, -, g2⟩ := g
  refine ⟨s'.dec (.attr (.obj 0) (c! "objs")), by rw [h4, bind_errM (onFail_err g1 he (decref_eq _ _))], ?_, ?_⟩
  · rw [net_dec, g2 he _ (.inr ⟨0, rfl, by omega⟩), h2]; decide +kernel
  · rw [net_dec, g2 he _ (.inr ⟨0, rfl, by omega⟩), h3]; decide +kernel

/-- The file `exSelected` of `Verif/Props/ToPyObj.lean`, which the parser accepts. -/
example : ∃ os, Vhdl.visitDesignFile false exSelected = .ok os ∧ toPyContext some os = .error .value :=
  C91_violated_selected some fun s => ⟨s, rfl⟩

/-- C94 is violated by processes: if an item of the sensitivity list cannot be converted, the reference to the list is given up twice
although it is owned once. -/
theorem C94_violated_process (dec : Str → Option Str) (ptr : FnHead → Bool) (i : StmInfo) (t : Trigger) (l : List Expr) (b : Obj) (e : PyErr)
    (he : e ≠ .ub) (h : toPyList dec l = .error e) :
    ∃ s', objR dec ptr (.process i t (some l) b) start = (s', .error e) ∧ net s' (.obj 1) = -1 := by
  have key : ∀ s2 : St, s2.next = 2 → net s2 (.obj 1) = 0 →
      ∃ s', onFail (appendsR dec (.obj 1) l) (decref (.obj 0)) s2 = (s', .error e) ∧ net s' (.obj 1) = -1 := by
    intro s2 h2 h3
    have g := appendsR_loop (dec := dec) (.obj 1) l s2
    rw [h] at g
    obtain ⟨s', g1, -, g2⟩ := g
    refine ⟨s'.dec (.obj 0), onFail_err g1 he (decref_eq _ _), ?_⟩
    rw [net_dec, g2 he _ (.inr ⟨1, rfl, by omega⟩), h3]
    decide +kernel
  have run : ∀ s1 : St, s1.next = 1 → net s1 (.obj 1) = 0 → ∃ s', sensR dec (.obj 0) (some l) s1 = (s', .error e) ∧ net s' (.obj 1) = -1 := by
    intro s1 h1 h2
    obtain ⟨next, log⟩ := s1
    simp only at h1
    subst h1
    refine key ⟨2, (.obj 1, -1) :: (.obj 1, 1) :: log⟩ rfl ?_
    simp only [net, netL] at h2 ⊢
    rw [h2]; rfl
  have en : ∃ s1 : St, s1.next = 1 ∧ net s1 (.obj 1) = 0 ∧ enumR (.obj 0) t.attr ⟨1, [(.obj 0, 1)]⟩ = (s1, .ok ()) := by
    cases t
    all_goals exact ⟨_, rfl, by decide +kernel, rfl⟩
  obtain ⟨s1, e1, e2, e3⟩ := en
  obtain ⟨s', r1, r2⟩ := run s1 e1 e2
  refine ⟨s', ?_, r2⟩
  simp only [objR, instR]
  have hn : new start = (⟨1, [(.obj 0, 1)]⟩, .ok (.obj 0)) := rfl
  rw [bind_okM hn]
  refine bind_errM ?_
  rw [bind_okM e3]
  exact bind_errM r1

example : toPyList some [.id none (c! "clk"), .null] = .error .value := rfl

/-- C94 is violated by assignments: if the source, destination or delay cannot be converted, the null pointer is released, which is
undefined behaviour (in practice the Python interpreter crashes instead of raising the exception). -/
theorem C94_violated_assign (dec : Str → Option Str) (ptr : FnHead → Bool) (i : StmInfo) (d s dl : Expr) (ev : Option (List Expr)) (b : Bool)
    (e : PyErr) (h : toPy dec s = .error e) (w : St) : (objR dec ptr (.assign i d s dl ev b) w).2 = .error .ub := by
  refine ((C93_same_outcome dec ptr _ w).2 .ub).2 ?_
  simp only [toPyO, h]
  rfl

/-- C94 is violated by the SystemVerilog item `assign a = ~{};`, whatever is assigned to and whatever the operator is: the parser accepts
it, the conversion of its result is undefined behaviour. -/
theorem C94_violated_empty_concat (dec : Str → Option Str) (ptr : FnHead → Bool) (a : Sv.LVal) (o : Sv.UnOp) (os : List Obj)
    (h : Sv.visitContAssign [(a, .unary o (.concat (.list [])))] = .ok os) : (contextR dec ptr os start).2 = .error .ub := by
  simp only [Sv.visitContAssign, Sv.visitVarAssigns] at h
  obtain ⟨x, hx, h⟩ := Vhdl.bind_ok h
  obtain ⟨_, h1, h⟩ := Vhdl.bind_ok h
  cases h1; cases h
  simp only [Sv.visitVarAssign, Sv.visitExp, Sv.visitPrim, Sv.visitConcat, Sv.visitExps] at hx
  obtain ⟨d, hd, hx⟩ := Vhdl.bind_ok hx
  obtain ⟨y, hy, hx⟩ := Vhdl.bind_ok hx
  cases hy
  have : x = .assign {} d (.op none o.toOp [.null]) .null none false := by
    cases d <;> first | cases hx; done | exact (Except.ok.inj hx).symm
  subst this
  obtain ⟨s1, -, -, -, h4⟩ := context_bind dec ptr [.assign {} d (.op none o.toOp [.null]) .null none false]
  have g := objsR_loop (dec := dec) (ptr := ptr) (.attr (.obj 0) (c! "objs")) [.assign {} d (.op none o.toOp [.null]) .null none false] s1
  have ht : ∃ e, toPy dec (.op none o.toOp [.null]) = .error e := by
    simp only [toPy, toPyList]
    cases o <;> exact ⟨_, rfl⟩
  obtain ⟨e, he⟩ := ht
  have hv : st (toPyOs dec [.assign {} d (.op none o.toOp [.null]) .null none false]) = some .ub := by
    simp only [toPyOs, toPyO, he]
    rfl
  rw [hv] at g
  obtain ⟨s', g1, -⟩ := g
  rw [h4, bind_errM (onFail_ub g1)]

/-- `assign a = ~{};` -/
example : ∃ os, Sv.visitContAssign [(.hier (.mk (.mk false .items [.mk (Sv.idI (c! "a")) .none]) [] [] .none), .unary .neg (.concat (.list [])))] =
    .ok os := by
  refine ⟨[.assign {} (.id none (c! "a")) (.op none .NEG [.null]) .null none false], ?_⟩
  simp only [Sv.visitContAssign, Sv.visitVarAssigns, Sv.visitVarAssign, Sv.visitExp, Sv.visitPrim, Sv.visitConcat, Sv.visitExps, Sv.visitLVal,
    Sv.visitHSel, Sv.visitPath, Sv.visitPathItems]
  rfl

end Verif.PyRef
