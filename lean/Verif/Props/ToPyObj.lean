import Verif.ToPyEraseLemmas
import Verif.VhdlPyLemmas
import Verif.Props.VhdlUnit
import Verif.Sv.Stm
/-!
# C91, C92: what reaches Python
-/
namespace Verif
open Spec Vhdl

/-! ## C91: which results of the parser reach Python -/

/-- C91: an object is converted exactly if every mandatory part of it is there (`wf`) and all its texts can be decoded. -/
theorem C91_success_iff (dec : Str → Option Str) (o : Obj) : (∃ p, toPyO dec o = .ok p) ↔ wf o ∧ ∀ s ∈ texts o, ∃ t, dec (cut s) = some t :=
  toPyO_ok o

theorem context_ok (dec : Str → Option Str) (l : List Obj) : (∃ p, toPyContext dec l = .ok p) ↔ Ok (toPyOs dec l) := by
  simp only [toPyContext]
  exact (ok_bindE _ _).trans ⟨fun ⟨a, h, _⟩ => ⟨a, h⟩, fun ⟨a, h⟩ => ⟨a, h, ⟨_, rfl⟩⟩⟩

/-- C91: a context is converted exactly if all its objects can be converted. -/
theorem C91_context_success_iff (dec : Str → Option Str) (l : List Obj) :
    (∃ p, toPyContext dec l = .ok p) ↔ ∀ o ∈ l, ∃ p, toPyO dec o = .ok p := by
  rw [context_ok]
  induction l with
  | nil => simp [toPyOs, ok_okE]
  | cons o l ih =>
    simp only [toPyOs, ok_bindE, ok_pureE, and_true, exists_and_right, List.mem_cons, forall_eq_or_imp, ← ih]
    rfl

/-- The texts of the objects of a file. -/
def fileTexts (os : List Obj) : List Str := os.flatMap texts

theorem mem_textsOs (s : Str) : ∀ l : List Obj, s ∈ textsOs l ↔ s ∈ fileTexts l
  | [] => by simp [textsOs, fileTexts]
  | o :: l => by
    simp only [textsOs, fileTexts, List.mem_append, List.flatMap_cons, mem_textsOs s l]

/-- C91: the result of parsing a VHDL file reaches Python exactly if all texts can be decoded and no process and no subprogram has an
unlabelled selected signal assignment as statement. -/
theorem C91_vhdl_file_iff (dec : Str → Option Str) (l : List DesignUnit) (os : List Obj) (h : visitDesignFile false l = .ok os) :
    (∃ p, toPyContext dec os = .ok p) ↔ (∀ u ∈ l, ¬ nullLibUnit u.unit) ∧ ∀ s ∈ fileTexts os, ∃ t, dec (cut s) = some t := by
  rw [context_ok, toPyOs_ok]
  simp only [mem_textsOs]
  refine and_congr_left fun _ => ⟨fun hw u hu hn => ?_, fun hn => designFile_wf false l hn os h⟩
  exact bad_not_wfs (designFile_null l ⟨u, hu, hn⟩ os h) hw

/-- C91: with `hierarchyOnly`, too, the result of every other VHDL file reaches Python. -/
theorem C91_vhdl_hierarchy (dec : Str → Option Str) (hier : Bool) (l : List DesignUnit) (os : List Obj) (h : visitDesignFile hier l = .ok os)
    (hn : ∀ u ∈ l, ¬ nullLibUnit u.unit) (ht : ∀ s ∈ fileTexts os, ∃ t, dec (cut s) = some t) : ∃ p, toPyContext dec os = .ok p := by
  rw [context_ok, toPyOs_ok]
  exact ⟨designFile_wf hier l hn os h, fun s hs => ht s ((mem_textsOs s os).1 hs)⟩

theorem exFile_no_null : ∀ u ∈ exFile, ¬ nullLibUnit u.unit := by
  intro u hu
  simp only [exFile, List.mem_cons, List.not_mem_nil, or_false] at hu
  rcases hu with rfl | rfl | rfl <;>
    simp [nullLibUnit, nullDecls, nullDecl, nullConcs, nullConc, exDecls, exConc, nullConcKind, nullGenBody, nullGenCond, nullGenConds, nullGenElse,
      nullGenAlts, nullSeq, nullSig, exInst, sigC, sigS]

/-- The file of `Verif/Props/VhdlUnit.lean`. -/
example : ∃ os p, visitDesignFile false exFile = .ok os ∧ toPyContext some os = .ok p := by
  obtain ⟨os, h⟩ := exFile_ok
  obtain ⟨p, hp⟩ := (C91_vhdl_file_iff some exFile os h).2 ⟨exFile_no_null, fun s _ => ⟨_, rfl⟩⟩
  exact ⟨os, p, h, hp⟩

example : ∃ os p, visitDesignFile true exFile = .ok os ∧ toPyContext some os = .ok p := by
  obtain ⟨os, h⟩ := exFile_ok
  obtain ⟨os', h', -⟩ := C90_hierarchy_only exFile os h
  obtain ⟨p, hp⟩ := C91_vhdl_hierarchy some true exFile os' h' exFile_no_null fun s _ => ⟨_, rfl⟩
  exact ⟨os', p, h', hp⟩

/--
```
architecture rtl of e is begin
  process begin with s select a <= b when others; end process;
end;
``` -/
def exSelected : List DesignUnit :=
  [⟨[], .arch (c! "rtl") (.lit (.ident (c! "e"))) [] [.plain none (.process false .none []
    [.mk none (.sig (.sel (idE (c! "s")) false (idT (c! "a")) none [(.elems ⟨idE (c! "b"), none⟩ [], [.others])]))])]⟩]

/-- C91 is violated by selected signal assignments in a process: the file is parsed, the conversion of the result raises `ValueError`. -/
theorem C91_violated_selected (dec : Str → Option Str) (hd : ∀ s, ∃ t, dec s = some t) :
    ∃ os, visitDesignFile false exSelected = .ok os ∧ toPyContext dec os = .error .value := by
  refine ⟨_, rfl, ?_⟩
  obtain ⟨r, hr⟩ := hd (c! "rtl")
  obtain ⟨e, he⟩ := hd (c! "e")
  simp [toPyContext, toPyOs, toPyO, toPyOpt, pyName, pyOpt, pySens, notNull, toPy, pyUnicode, hr, he, bind, Except.bind, pure, Except.pure]

/-- C91 is violated by `do` `while` statements: whatever the statement is, the conversion raises `TypeError`. -/
theorem C91_violated_do_while (dec : Str → Option Str) (b : Sv.StmN) (e : Sv.Exp) (o : Obj) (h : Sv.visitStmItem (.doWhile b e) = .ok o) :
    toPyO dec o = .error .type := by
  simp only [Sv.visitStmItem] at h
  obtain ⟨_, _, h⟩ := Vhdl.bind_ok h
  obtain ⟨_, _, h⟩ := Vhdl.bind_ok h
  cases h
  simp only [toPyO]

example : ∃ o, Sv.visitStmItem (.doWhile .semi (.prim (.lit .null))) = .ok o := ⟨_, rfl⟩

/-! ## C92: what Python gets -/

/-- C92: a program that looks at classes and attributes of the Python objects finds the object of the C++ side, as far as `erase` keeps it. -/
theorem C92_read (dec : Str → Option Str) (enc : Str → Str) (henc : ∀ s t, dec s = some t → enc t = s) (o : Obj) (p : PyO)
    (h : toPyO dec o = .ok p) : readPy enc p = erase o :=
  toPyO_view henc o p h

/-- C92: two objects are the same for Python exactly if `erase` keeps no difference between them. -/
theorem C92_same_iff (dec : Str → Option Str) (enc : Str → Str) (henc : ∀ s t, dec s = some t → enc t = s) (o o' : Obj) (p p' : PyO)
    (h : toPyO dec o = .ok p) (h' : toPyO dec o' = .ok p') : p = p' ↔ erase o = erase o' := by
  constructor
  · rintro rfl
    rw [← C92_read dec enc henc o p h, ← C92_read dec enc henc o' p h']
  · intro he
    have := toPyO_erase (dec := dec) o
    rw [he, toPyO_erase, h, h'] at this
    exact (Except.ok.inj this).symm

theorem views_map (enc : Str → Str) (l : List PyO) : (views enc l).map (·.o) = l.map (readPy enc) := by
  induction l with
  | nil => simp [views]
  | cons p l ih => simp only [views, List.map_cons, ih, readPy]

theorem eraseOs_map (l : List Obj) : eraseOs l = l.map erase := by
  induction l with
  | nil => simp [eraseOs]
  | cons o l ih => simp only [eraseOs, List.map_cons, ih]

/-- C92: the context has the objects of the file, in order. -/
theorem C92_context_read (dec : Str → Option Str) (enc : Str → Str) (henc : ∀ s t, dec s = some t → enc t = s) (l : List Obj) (p : PyO)
    (h : toPyContext dec l = .ok p) : ∃ ps, p = .inst (c! "HdlContext") [(c! "objs", .list ps)] ∧ ps.map (readPy enc) = l.map erase := by
  simp only [toPyContext] at h
  obtain ⟨ps, hp, h⟩ := bind_okE h
  cases h
  refine ⟨ps, rfl, ?_⟩
  rw [← views_map, toPyOs_view henc l ps hp, eraseOs_map]

/-- C92 (supported fragment): no two VHDL files with different meanings are the same for Python. Missing: what `okDesignUnit` leaves out,
and objects with parts that do not reach Python (see the `C92_violated` theorems). -/
theorem C92_vhdl_injective_partial (dec : Str → Option Str) (enc : Str → Str) (henc : ∀ s t, dec s = some t → enc t = s)
    (x y : List DesignUnit) (hx : ∀ u ∈ x, okDesignUnit u) (hy : ∀ u ∈ y, okDesignUnit u) (os os' : List Obj) (p : PyO)
    (hvx : visitDesignFile false x = .ok os) (hvy : visitDesignFile false y = .ok os') (hkx : ∀ o ∈ os, erase o = o) (hky : ∀ o ∈ os', erase o = o)
    (hpx : toPyContext dec os = .ok p) (hpy : toPyContext dec os' = .ok p) :
    evDesignFile Term.alg STerm.alg x = evDesignFile Term.alg STerm.alg y := by
  obtain ⟨ps, h1, h2⟩ := C92_context_read dec enc henc os p hpx
  obtain ⟨ps', h3, h4⟩ := C92_context_read dec enc henc os' p hpy
  have hps : ps = ps' := by rw [h1] at h3; injection h3 with _ h; injection h with h _; injection h with _ h; injection h
  subst hps
  rw [h2, List.map_congr_left hkx, List.map_congr_left hky, List.map_id', List.map_id'] at h4
  subst h4
  exact C89_file_injective_partial x y hx hy (hvx.trans hvy.symm)

example : ∀ s t : Str, some s = some t → id t = s := fun _ _ h => (Option.some.inj h).symm

example : ∃ os p, visitDesignFile false exFile = .ok os ∧ (∀ o ∈ os, erase o = o) ∧ toPyContext some os = .ok p := by
  obtain ⟨p, hp⟩ := (C91_vhdl_file_iff some exFile _ rfl).2 ⟨exFile_no_null, fun s _ => ⟨_, rfl⟩⟩
  refine ⟨_, p, rfl, ?_, hp⟩
  intro o ho
  rcases ho with _ | ⟨_, ho⟩
  · rfl
  rcases ho with _ | ⟨_, ho⟩
  · rfl
  rcases ho with _ | ⟨_, ho⟩
  · rfl
  rcases ho with _ | ⟨_, ho⟩
  · rfl
  rcases ho with _ | ⟨_, ho⟩
  · rfl
  cases ho

/-- C92 is violated by `open`: Python cannot tell `port map (a => open)` from `port map (a => null)`. -/
theorem C92_violated_open (dec : Str → Option Str) (label n a : Str) :
    ∃ o o', visitConc false (.inst label (.component false (.lit (.ident n))) none (some [.named (.lit (.ident a)) (.desig .opn)])) = .ok o ∧
      visitConc false (.inst label (.component false (.lit (.ident n))) none
        (some [.named (.lit (.ident a)) (.desig (.expr (.simple (.prim .null))))])) = .ok o' ∧ o ≠ o' ∧ toPyO dec o = toPyO dec o' := by
  refine ⟨_, _, rfl, rfl, ?_, ?_⟩
  · simp [Expr.mkBin, Expr.push]
  · rw [← toPyO_erase, ← toPyO_erase (o := .inst _ _ _ [_])]
    rfl

/-- C92 is violated by labels: Python cannot tell `l: p;` from `p;`, and the same for `assert`, `report`, `next` and `exit`. -/
theorem C92_violated_label (dec : Str → Option Str) (l : Str) (s : SeqKind) (hs : ∃ e, visitSeqKind s = .ok (.expr {} e)) :
    ∃ o o', visitSeq (.mk (some l) s) = .ok o ∧ visitSeq (.mk none s) = .ok o' ∧ o ≠ o' ∧ toPyO dec o = toPyO dec o' := by
  obtain ⟨e, he⟩ := hs
  refine ⟨.expr ⟨[l], false⟩ e, .expr {} e, ?_, ?_, ?_, ?_⟩
  · simp [visitSeq, he, pushLabel, Obj.mapInfo, bind, Except.bind, pure, Except.pure]
  · simp [visitSeq, he, bind, Except.bind, pure, Except.pure]
  · simp
  · simp only [toPyO]

example : ∃ e, visitSeqKind (.call (.lit (.ident (c! "p")))) = .ok (.expr {} e) := ⟨_, rfl⟩

/-- C92 is violated by `null`: Python cannot tell `return null;` from `return;`, and `variable v : t := null;` from `variable v : t;`. -/
theorem C92_violated_null (dec : Str → Option Str) (v t : Str) :
    (∃ o o', visitSeq (.mk none (.ret (some (.simple (.prim .null))))) = .ok o ∧ visitSeq (.mk none (.ret none)) = .ok o' ∧ o ≠ o' ∧
      toPyO dec o = toPyO dec o') ∧
    (∃ os os', visitDecl false (.variable false ⟨[v], idS t, some (.simple (.prim .null))⟩) = .ok os ∧
      visitDecl false (.variable false ⟨[v], idS t, none⟩) = .ok os' ∧ os ≠ os' ∧ toPyOs dec os = toPyOs dec os') := by
  refine ⟨⟨_, _, rfl, rfl, ?_, ?_⟩, ⟨_, _, rfl, rfl, ?_, ?_⟩⟩
  · simp
  · rw [← toPyO_erase]; rfl
  · simp
  · refine (toPyOs_erase _).symm.trans (Eq.trans ?_ (toPyOs_erase _)); rfl

end Verif
