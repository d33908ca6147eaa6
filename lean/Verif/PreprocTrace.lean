import Verif.PyProxy
import Verif.PreprocLemmas
/-!
# Every run changes the macro database by a sequence of `RunStep`s only
-/
namespace Verif

/-- Effect of a sequence of accesses on the database and the flag of the preprocessor model. -/
def applySteps (l : List RunStep) (x : MacroDB × Bool) : MacroDB × Bool := l.foldl (fun x r => r.onDb x) x

/-- All effects of `m` on the database are accesses. -/
def Traced {α : Type} (m : M α) : Prop := ∀ s, ∃ l, applySteps l (s.db, s.ub) = ((m s).2.db, (m s).2.ub)

namespace Traced

theorem bind {α β : Type} {m : M α} {f : α → M β} (h : Traced m) (hf : ∀ a, Traced (f a)) : Traced (m >>= f) := by
  intro s
  obtain ⟨l, hl⟩ := h s
  rcases hm : m s with ⟨_ | a, s1⟩
  · rw [M.bind_error hm]; rw [hm] at hl; exact ⟨l, hl⟩
  · rw [M.bind_ok hm]
    rw [hm] at hl
    obtain ⟨l', hl'⟩ := hf a s1
    refine ⟨l ++ l', ?_⟩
    rw [← hl', applySteps, List.foldl_append]
    exact congrArg (applySteps l') hl

theorem pure {α : Type} (a : α) : Traced (Pure.pure a : M α) := fun _ => ⟨[], rfl⟩
theorem lift {α : Type} (x : Except Exc α) : Traced (M.lift x) := fun s => ⟨[], by rw [M.lift_apply]; rfl⟩
theorem throw {α : Type} (e : Exc) : Traced (M.throw e : M α) := fun s => ⟨[], by rw [M.throw_apply]; rfl⟩
theorem get : Traced M.get := fun s => ⟨[], by rw [M.get_apply]; rfl⟩
theorem modify {f : PState → PState} (h1 : ∀ s, (f s).db = s.db) (h2 : ∀ s, (f s).ub = s.ub) : Traced (M.modify f) :=
  fun s => ⟨[], by rw [M.modify_apply]; simp [applySteps, h1, h2]⟩
theorem ite {α : Type} {c : Prop} [Decidable c] {a b : M α} (ha : Traced a) (hb : Traced b) : Traced (if c then a else b) := by
  split <;> assumption

end Traced

section
variable {env : Env} {rec : Rec} (hrec : ∀ ctx t o, Traced (rec ctx t o))
include hrec

theorem traced_runStr (text enc : Str) (out : OutBuf) : Traced (runStr rec text enc out) :=
  Traced.get.bind fun _ => (Traced.lift _).bind fun _ => (Traced.lift _).bind fun _ => hrec _ _ _

theorem traced_runFile (path enc : Str) (out : OutBuf) : Traced (runFile env rec path enc out) :=
  Traced.get.bind fun _ => (Traced.modify (by intro; rfl) (by intro; rfl)).bind fun _ => (Traced.lift _).bind fun _ =>
    (Traced.lift _).bind fun _ => (Traced.lift _).bind fun _ => (hrec _ _ _).bind fun _ =>
      (Traced.modify (by intro; rfl) (by intro; rfl)).bind fun _ => Traced.pure _

theorem traced_expandCall (ctx : Ctx) (c : Call) (out : OutBuf) : Traced (expandCall env rec ctx c out) := by
  refine Traced.get.bind fun s => ?_
  split
  · exact Traced.throw _
  · split
    · exact Traced.throw _
    · refine (Traced.lift _).bind fun r => Traced.bind ?_ fun _ => Traced.lift _
      unfold rescan
      refine Traced.ite (Traced.get.bind fun s => Traced.ite (Traced.throw _) ?_) (Traced.pure _)
      exact (Traced.modify (by intro; rfl) (by intro; rfl)).bind fun _ => (traced_runStr hrec _ _ _).bind fun _ =>
        (Traced.modify (by intro; rfl) (by intro; rfl)).bind fun _ => Traced.pure _

theorem traced_visitInclude (ctx : Ctx) (line col : Nat) (a : IncArg) (out : OutBuf) :
    Traced (visitInclude env rec ctx line col a out) := by
  refine Traced.bind ?_ fun q => Traced.get.bind fun s => (Traced.lift _).bind fun f => ?_
  · cases a with
    | str q => exact Traced.pure _
    | call c => exact traced_expandCall hrec _ _ _
  · cases f with
    | none => exact Traced.throw _
    | some file =>
      refine Traced.ite (Traced.throw _) ?_
      unfold runInclude
      refine Traced.get.bind fun s => Traced.ite ?_ ((traced_runFile hrec _ _ _).bind fun _ => Traced.pure _)
      split
      · exact Traced.throw _
      · exact (Traced.modify (by intro; rfl) (by intro; rfl)).bind fun _ => (traced_runFile hrec _ _ _).bind fun _ =>
          (Traced.modify (by intro; rfl) (by intro; rfl)).bind fun _ => Traced.pure _

omit hrec in
theorem traced_define (ctx : Ctx) (d : DefineNode) : Traced (visitDefine ctx d) := by
  refine (Traced.lift _).bind fun b => ?_
  split
  · rename_i m _
    exact fun s => ⟨[.insert d.name (.user m)], rfl⟩
  · exact Traced.throw _

omit hrec in
theorem traced_undef (name : Str) : Traced (visitUndef name) := by
  intro s
  refine ⟨[.undef name], ?_⟩
  simp only [visitUndef, M.modify_apply, applySteps, List.foldl_cons, List.foldl_nil, RunStep.onDb]
  cases h : s.db.find name with
  | none => rfl
  | some item =>
    simp only
    split <;> rfl

mutual
theorem traced_visitNode (ctx : Ctx) : ∀ (nd : Node) (out : OutBuf), Traced (visitNode env rec ctx nd out)
  | .code _ _, _ => by rw [visitNode]; exact (Traced.lift _).bind fun _ => Traced.pure _
  | .define _, _ => by rw [visitNode]; exact (traced_define _ _).bind fun _ => Traced.pure _
  | .cond neg b, out => by rw [visitNode]; exact traced_visitBranches ctx neg b out
  | .call _, _ => by
    rw [visitNode]
    exact (traced_expandCall hrec _ _ _).bind fun _ => (Traced.lift _).bind fun _ => Traced.pure _
  | .undef _, _ => by rw [visitNode]; exact (traced_undef _).bind fun _ => Traced.pure _
  | .undefineall, _ => by
    rw [visitNode]
    exact Traced.bind (fun s => ⟨[.undefineall], rfl⟩) fun _ => Traced.pure _
  | .incl _ _ _, _ => by rw [visitNode]; exact traced_visitInclude hrec _ _ _ _ _
  | .lineDir _ _, _ => by rw [visitNode]; exact Traced.lift _
  | .nop, _ => by rw [visitNode]; exact Traced.pure _
theorem traced_visitNodes (ctx : Ctx) : ∀ (ns : Nodes) (out : OutBuf), Traced (visitNodes env rec ctx ns out)
  | .nil, _ => by rw [visitNodes]; exact Traced.pure _
  | .cons n r, out => by
    rw [visitNodes]
    exact (traced_visitNode ctx n out).bind fun o => traced_visitNodes ctx r o
theorem traced_visitBranches (ctx : Ctx) (neg : Bool) : ∀ (b : Branches) (out : OutBuf), Traced (visitBranches env rec ctx neg b out)
  | .endif, _ => by rw [visitBranches]; exact Traced.pure _
  | .els _ g, _ => by rw [visitBranches]; exact (Traced.lift _).bind fun o => traced_visitNodes ctx g o
  | .elif _ _ g r, out => by
    rw [visitBranches]
    exact Traced.get.bind fun s => Traced.ite ((Traced.lift _).bind fun o => traced_visitNodes ctx g o) (traced_visitBranches ctx neg r out)
end

end

theorem traced_run (env : Env) (n : Nat) (ctx : Ctx) (t : Str) (o : OutBuf) : Traced (run env n ctx t o) := by
  induction n generalizing ctx t o with
  | zero => exact Traced.throw _
  | succ n ih =>
    rw [run]
    split
    · exact Traced.throw _
    · exact Traced.throw _
    · exact Traced.ite (traced_visitNodes ih _ _ _) (Traced.throw _)

/-- The accesses of `init` (verilogPreprocContainer.cpp 18-20). -/
def initSteps (lang : Nat) : List RunStep :=
  .undefineall :: if 6 ≤ lang then [.insert (c! "__LINE__") .line, .insert (c! "__FILE__") .file] else []

theorem initSteps_eq (env : Env) (db : MacroDB) (incdirs : List Str) :
    applySteps (initSteps env.lang) (db, false) = ((initState env db incdirs).db, false) := by
  unfold initSteps initState MacroDB.addDefaults
  split <;> rfl

theorem trace_ppStr (env : Env) (db : MacroDB) (incdirs : List Str) (text enc : Str) :
    ∃ l, applySteps l (db, false) =
      ((verilogPpStr env db incdirs text enc).2.db, (verilogPpStr env db incdirs text enc).2.ub) := by
  obtain ⟨l, hl⟩ := ((traced_runStr (traced_run env FUEL) text enc (OutBuf.new 0)).bind
    fun o => Traced.pure o.text) (initState env db incdirs)
  refine ⟨initSteps env.lang ++ l, ?_⟩
  rw [applySteps, List.foldl_append]
  exact (congrArg (applySteps l) (initSteps_eq env db incdirs)).trans hl

theorem trace_pp (env : Env) (db : MacroDB) (incdirs : List Str) (path enc : Str) :
    ∃ l, applySteps l (db, false) =
      ((verilogPp env db incdirs path enc).2.db, (verilogPp env db incdirs path enc).2.ub) := by
  obtain ⟨l, hl⟩ := ((traced_runFile (env := env) (traced_run env FUEL) path enc (OutBuf.new 0)).bind
    fun o => Traced.pure o.text) (initState env db incdirs)
  refine ⟨initSteps env.lang ++ l, ?_⟩
  rw [applySteps, List.foldl_append]
  exact (congrArg (applySteps l) (initSteps_eq env db incdirs)).trans hl

end Verif
