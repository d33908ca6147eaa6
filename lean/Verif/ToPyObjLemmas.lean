import Verif.Spec.PyRead
/-!
# Lemmas about the conversion of objects to Python
-/
set_option linter.unusedSimpArgs false

namespace Verif
open Spec

/-! ## When it succeeds -/

/-- The conversion succeeds. -/
def Ok {α : Type} (x : Except PyErr α) : Prop := ∃ a, x = .ok a

theorem ok_bindE {α β : Type} (x : Except PyErr α) (f : α → Except PyErr β) : Ok (x >>= f) ↔ ∃ a, x = .ok a ∧ Ok (f a) := by
  cases x with
  | error e =>
    constructor
    · rintro ⟨_, h⟩; cases h
    · rintro ⟨_, h, -⟩; cases h
  | ok a =>
    constructor
    · intro h; exact ⟨a, rfl, h⟩
    · rintro ⟨_, h, h'⟩; cases h; exact h'

theorem ok_pureE {α : Type} (a : α) : Ok (pure a : Except PyErr α) ↔ True := ⟨fun _ => trivial, fun _ => ⟨a, rfl⟩⟩

theorem ok_okE {α : Type} (a : α) : Ok (.ok a : Except PyErr α) ↔ True := ⟨fun _ => trivial, fun _ => ⟨a, rfl⟩⟩

theorem ok_errE {α : Type} (e : PyErr) : Ok (.error e : Except PyErr α) ↔ False := ⟨fun ⟨_, h⟩ => (by cases h), fun h => h.elim⟩

theorem ok_def {α : Type} (x : Except PyErr α) : (∃ a, x = .ok a) ↔ Ok x := Iff.rfl

theorem ok_ubFail {α : Type} (x : Except PyErr α) : Ok (ubFail x) ↔ Ok x := by
  cases x
  · simp only [ubFail, ok_errE]
  · simp only [ubFail, ok_okE]

theorem ubFail_ok {α : Type} {x : Except PyErr α} {a : α} (h : ubFail x = .ok a) : x = .ok a := by
  cases x
  · cases h
  · exact h

/-- The text can be decoded. -/
def Dec (dec : Str → Option Str) (s : Str) : Prop := ∃ t, dec (cut s) = some t

variable {dec : Str → Option Str}

theorem pyUnicode_ok (s : Str) : Ok (pyUnicode dec s) ↔ Dec dec s := by
  simp only [pyUnicode, Dec, cut]
  cases h : dec (s.takeWhile (· ≠ '\x00')) with
  | none => simp [ok_errE]
  | some t => simp [ok_okE]

theorem opName_ok (o : OpType) : ∃ n, o.toString = .ok n := by cases o <;> exact ⟨_, rfl⟩

theorem pyInt_ok (v : IntVal) : Ok (pyInt dec v) ↔ (∀ s ∈ (if v.int.base ≠ -1 then [v.int.bitstring] else []), Dec dec s) := by
  simp only [pyInt, ok_bindE, ok_pureE, and_true, ok_def]
  split
  · simp [pyUnicode_ok]
  · simp [ok_okE]

/-- The name of a pair. -/
def pairName (dec : Str → Option Str) : Option Str → Except PyErr Py
  | some n => pyUnicode dec n
  | none => .ok .none

/-- The value of a pair. -/
def pairVal (dec : Str → Option Str) : Expr → Except PyErr Py
  | .null => .ok .none
  | e => ubFail (toPy dec e)

theorem toPyPairs_eq (n : Option Str) (ns : List (Option Str)) (e : Expr) (l : List Expr) :
    toPyPairs dec (n :: ns) (e :: l) = (do
      let n ← pairName dec n
      let v ← pairVal dec e
      let l ← toPyPairs dec ns l
      return .tuple n v :: l) := by
  cases n <;> cases e <;> simp only [toPyPairs, pairName, pairVal]

theorem pairName_ok (n : Option Str) : Ok (pairName dec n) ↔ ∀ s ∈ n.toList, Dec dec s := by
  cases n <;> simp [pairName, ok_okE, pyUnicode_ok]

theorem pairVal_ne {e : Expr} (h : e ≠ .null) : pairVal dec e = ubFail (toPy dec e) := by
  cases e <;> first | rfl | exact absurd rfl h

mutual
theorem toPy_ok : ∀ e : Expr, Ok (toPy dec e) ↔ wfE e ∧ ∀ s ∈ textsE e, Dec dec s
  | .null => by simp [toPy, wfE, ok_errE]
  | .id _ s => by simp only [toPy, wfE, textsE, ok_bindE, ok_pureE, and_true, ok_def, pyUnicode_ok]; simp
  | .int _ v => by simp only [toPy, wfE, textsE, true_and]; exact pyInt_ok v
  | .float _ _ => by simp [toPy, wfE, textsE, ok_okE]
  | .str _ s => by simp [toPy, wfE, textsE, pyUnicode_ok]
  | .symb _ _ => by simp [toPy, wfE, textsE, ok_okE]
  | .arr _ l => by simp only [toPy, wfE, textsE, ok_bindE, ok_pureE, and_true, ok_def]; exact toPyList_ok l
  | .op _ o l => by
    obtain ⟨n, hn⟩ := opName_ok o
    simp only [toPy, hn, wfE, textsE, ok_bindE, ok_pureE, and_true, ok_def]; exact toPyList_ok l
  | .notImpl _ => by simp [toPy, wfE, textsE, ok_okE]
  | .enumDef _ _ _ ns vs => by simp only [toPy, wfE, textsE, ok_bindE, ok_pureE, and_true, ok_def]; exact toPyPairs_ok ns vs
  | .physDef _ _ r ns vs => by
    simp only [toPy, wfE, textsE, ok_bindE, ok_pureE, and_true, exists_and_right, ok_def, toPy_ok r, toPyPairs_ok (ns.map some) vs, List.mem_append, or_imp,
      forall_and]
    grind
  | .classDef _ _ _ _ l _ _ => by simp only [toPy, wfE, textsE, ok_bindE, ok_pureE, and_true, ok_def]; exact toPyList_ok l
theorem toPyList_ok : ∀ l : List Expr, Ok (toPyList dec l) ↔ wfEs l ∧ ∀ s ∈ textsEs l, Dec dec s
  | [] => by simp [toPyList, wfEs, textsEs, ok_okE]
  | e :: l => by
    simp only [toPyList, wfEs, textsEs, ok_bindE, ok_pureE, and_true, exists_and_right, ok_def, toPy_ok e, toPyList_ok l, List.mem_append, or_imp, forall_and]
    grind
theorem toPyPairs_ok : ∀ (ns : List (Option Str)) (vs : List Expr), Ok (toPyPairs dec ns vs) ↔ wfPs ns vs ∧ ∀ s ∈ textsPs ns vs, Dec dec s
  | [], vs => by simp [toPyPairs, wfPs, textsPs, ok_okE]
  | _ :: _, [] => by simp [toPyPairs, wfPs, textsPs, ok_okE]
  | n :: ns, e :: l => by
    have he : Ok (pairVal dec e) ↔ (e = .null ∨ wfE e) ∧ ∀ s ∈ textsE e, Dec dec s := by
      by_cases h : e = .null
      · simp [h, pairVal, ok_okE, textsE]
      · simp only [pairVal_ne h, ok_ubFail, toPy_ok e, h, false_or]
    simp only [toPyPairs_eq, wfPs, textsPs, ok_bindE, ok_pureE, and_true, exists_and_right, ok_def, pairName_ok, he, toPyPairs_ok ns l, List.mem_append, or_imp,
      forall_and]
    grind
end

theorem pyName_ok (s : Str) : Ok (pyName dec s) ↔ ∀ t ∈ textsName s, Dec dec t := by
  cases s with
  | nil => simp [pyName, textsName, ok_okE]
  | cons c s => simp only [pyName, textsName, ok_bindE, ok_pureE, and_true, ok_def, pyUnicode_ok]; simp

theorem pyStrs_ok : ∀ l : List Str, Ok (pyStrs dec l) ↔ ∀ s ∈ l, Dec dec s
  | [] => by simp [pyStrs, ok_okE]
  | s :: l => by simp only [pyStrs, ok_bindE, ok_pureE, and_true, exists_and_right, ok_def, pyUnicode_ok, pyStrs_ok l]; simp

theorem pyExprs_ok (l : List Expr) : Ok (pyExprs dec l) ↔ wfEs l ∧ ∀ s ∈ textsEs l, Dec dec s := by
  simp only [pyExprs, ok_bindE, ok_pureE, and_true, ok_def]; exact toPyList_ok l

theorem pyOpt_ok (e : Expr) : Ok (pyOpt dec e) ↔ wfOpt e ∧ ∀ s ∈ textsE e, Dec dec s := by
  cases e with
  | null => simp [pyOpt, wfOpt, textsE, ok_okE]
  | _ => simp only [pyOpt, wfOpt, ok_bindE, ok_pureE, and_true, ok_def, toPy_ok, reduceCtorEq, false_or]

theorem pyDir_ok (d : Dir) : Ok (pyDir d) ↔ d ≠ .UNKNOWN := by
  cases d <;> simp [pyDir, Dir.toString, ok_okE, ok_errE]

theorem pyIdDef_ok (d : IdDef) : Ok (pyIdDef dec d) ↔ wfId d ∧ ∀ s ∈ textsId d, Dec dec s := by
  simp only [pyIdDef, wfId, textsId, ok_bindE, ok_pureE, and_true, exists_and_right, ok_def, pyName_ok, pyOpt_ok, pyDir_ok, List.mem_append, or_imp,
    forall_and]
  grind

theorem pyIdDefs_ok : ∀ l : List IdDef, Ok (pyIdDefs dec l) ↔ (∀ d ∈ l, wfId d) ∧ ∀ s ∈ l.flatMap textsId, Dec dec s
  | [] => by simp [pyIdDefs, ok_okE]
  | d :: l => by
    simp only [pyIdDefs, ok_bindE, ok_pureE, and_true, exists_and_right, ok_def, pyIdDef_ok, pyIdDefs_ok l, List.flatMap_cons, List.mem_append, or_imp,
      forall_and, List.mem_cons, forall_eq]
    grind

theorem pyInfo_ok (i : StmInfo) : Ok (pyInfo dec i) ↔ ∀ s ∈ i.labels, Dec dec s := by
  simp only [pyInfo, ok_bindE, ok_pureE, and_true, ok_def, pyStrs_ok]

theorem pyEvents_ok (l : Option (List Expr)) : Ok (pyEvents dec l) ↔ wfEs (l.getD []) ∧ ∀ s ∈ textsEs (l.getD []), Dec dec s := by
  rcases l with _ | _ | ⟨e, l⟩ <;> simp [pyEvents, ok_okE, wfEs, textsEs, pyExprs_ok]

theorem pySens_ok (l : Option (List Expr)) : Ok (pySens dec l) ↔ wfEs (l.getD []) ∧ ∀ s ∈ textsEs (l.getD []), Dec dec s := by
  rcases l with _ | l <;> simp [pySens, ok_okE, wfEs, textsEs, pyExprs_ok]

theorem notNull_ok (o : Obj) : Ok (notNull o) ↔ o ≠ .null := by
  cases o <;> simp [notNull, ok_okE, ok_errE]

theorem wf_ne {o : Obj} (h : wf o) : o ≠ .null := by rintro rfl; exact h

mutual
theorem toPyO_ok : ∀ o : Obj, Ok (toPyO dec o) ↔ wf o ∧ ∀ s ∈ texts o, Dec dec s
  | .null => by simp [toPyO, wf, ok_errE]
  | .id d => by simp only [toPyO, wf, texts]; exact pyIdDef_ok d
  | .record n ms => by
    simp only [toPyO, wf, texts, ok_bindE, ok_pureE, and_true, exists_and_right, ok_def, pyName_ok, pyIdDefs_ok, List.mem_append, or_imp, forall_and]
    grind
  | .fn h b => by
    simp only [toPyO, wf, texts, ok_bindE, ok_pureE, and_true, exists_and_right, ok_def, pyName_ok, pyIdDefs_ok, pyOpt_ok, toPyOs_ok b, List.mem_append, or_imp,
      forall_and]
    grind
  | .inst n m g p => by
    simp only [toPyO, wf, texts, ok_bindE, ok_pureE, and_true, exists_and_right, ok_def, toPy_ok, pyExprs_ok, List.mem_append, or_imp, forall_and]
    grind
  | .modDec n g p l => by
    simp only [toPyO, wf, texts, ok_bindE, ok_pureE, and_true, exists_and_right, ok_def, pyName_ok, pyIdDefs_ok, toPyOs_ok l, List.mem_append, or_imp, forall_and]
    grind
  | .modDef n m d l => by
    simp only [toPyO, wf, texts, ok_bindE, ok_pureE, and_true, exists_and_right, ok_def, pyName_ok, pyOpt_ok, toPyOpt_ok d, toPyOs_ok l, List.mem_append, or_imp,
      forall_and]
    grind
  | .assign i d s dl ev b => by
    simp only [toPyO, wf, texts, ok_bindE, ok_pureE, and_true, exists_and_right, ok_def, ok_ubFail, toPy_ok, pyOpt_ok, pyEvents_ok, pyInfo_ok, List.mem_append, or_imp,
      forall_and]
    grind
  | .block i j l => by
    simp only [toPyO, wf, texts, ok_bindE, ok_pureE, and_true, exists_and_right, ok_def, toPyOs_ok l, pyInfo_ok, List.mem_append, or_imp, forall_and]
    grind
  | .case i u t s cs d => by
    simp only [toPyO, wf, texts, ok_bindE, ok_pureE, and_true, exists_and_right, ok_def, toPy_ok, toPyBs_ok cs, toPyOpt_ok d, pyInfo_ok, List.mem_append, or_imp,
      forall_and]
    grind
  | .expr i e => by simp only [toPyO, wf, texts, ok_bindE, ok_pureE, and_true, ok_def]; exact toPy_ok e
  | .for_ i a c s b => by
    simp only [toPyO, wf, texts, ok_bindE, ok_pureE, and_true, exists_and_right, ok_def, notNull_ok, toPy_ok, toPyO_ok a, toPyO_ok s, toPyO_ok b, pyInfo_ok,
      List.mem_append, or_imp, forall_and]
    have ha := @wf_ne a
    have hs := @wf_ne s
    grind
  | .forIn i vs c b => by
    simp only [toPyO, wf, texts, ok_bindE, ok_pureE, and_true, exists_and_right, ok_def, toPy_ok, toPyOs_ok vs, toPyO_ok b, pyInfo_ok, List.mem_append, or_imp,
      forall_and]
    grind
  | .repeat_ i n b => by
    simp only [toPyO, wf, texts, ok_bindE, ok_pureE, and_true, exists_and_right, ok_def, toPy_ok, toPyO_ok b, pyInfo_ok, List.mem_append, or_imp, forall_and]
    grind
  | .while_ i c b => by
    simp only [toPyO, wf, texts, ok_bindE, ok_pureE, and_true, exists_and_right, ok_def, notNull_ok, toPy_ok, toPyO_ok b, pyInfo_ok, List.mem_append, or_imp,
      forall_and]
    have hb := @wf_ne b
    grind
  | .doWhile _ _ _ => by simp [toPyO, wf, ok_errE]
  | .if_ i c t el f => by
    simp only [toPyO, wf, texts, ok_bindE, ok_pureE, and_true, exists_and_right, ok_def, toPy_ok, toPyO_ok t, toPyBs_ok el, toPyOpt_ok f, pyInfo_ok,
      List.mem_append, or_imp, forall_and]
    grind
  | .process i t s b => by
    simp only [toPyO, wf, texts, ok_bindE, ok_pureE, and_true, exists_and_right, ok_def, notNull_ok, pySens_ok, toPyO_ok b, pyInfo_ok, List.mem_append, or_imp,
      forall_and]
    have hb := @wf_ne b
    grind
  | .break_ i => by simp only [toPyO, wf, texts, ok_bindE, ok_pureE, and_true, true_and, ok_def, pyInfo_ok]
  | .continue_ i => by simp only [toPyO, wf, texts, ok_bindE, ok_pureE, and_true, true_and, ok_def, pyInfo_ok]
  | .nop i => by simp only [toPyO, wf, texts, ok_bindE, ok_pureE, and_true, true_and, ok_def, pyInfo_ok]
  | .import_ i l => by
    simp only [toPyO, wf, texts, ok_bindE, ok_pureE, and_true, exists_and_right, ok_def, pyExprs_ok, pyInfo_ok, List.mem_append, or_imp, forall_and]
    grind
  | .return_ i v => by
    simp only [toPyO, wf, texts, ok_bindE, ok_pureE, and_true, exists_and_right, ok_def, pyOpt_ok, pyInfo_ok, List.mem_append, or_imp, forall_and]
    grind
  | .wait i l => by
    simp only [toPyO, wf, texts, ok_bindE, ok_pureE, and_true, exists_and_right, ok_def, pyExprs_ok, pyInfo_ok, List.mem_append, or_imp, forall_and]
    grind
  | .idspace n d l => by
    simp only [toPyO, wf, texts, ok_bindE, ok_pureE, and_true, exists_and_right, ok_def, pyName_ok, toPyOs_ok l, List.mem_append, or_imp, forall_and]
    grind
  | .library n => by simp only [toPyO, wf, texts, ok_bindE, ok_pureE, and_true, true_and, ok_def, pyName_ok]
theorem toPyOs_ok : ∀ l : List Obj, Ok (toPyOs dec l) ↔ wfs l ∧ ∀ s ∈ textsOs l, Dec dec s
  | [] => by simp [toPyOs, wfs, textsOs, ok_okE]
  | o :: l => by
    simp only [toPyOs, wfs, textsOs, ok_bindE, ok_pureE, and_true, exists_and_right, ok_def, toPyO_ok o, toPyOs_ok l, List.mem_append, or_imp, forall_and]
    grind
theorem toPyOpt_ok : ∀ o : Obj, Ok (toPyOpt dec o) ↔ (o = .null ∨ wf o) ∧ ∀ s ∈ texts o, Dec dec s
  | .null => by simp [toPyOpt, texts, ok_okE]
  | o => by
    have h := toPyO_ok o
    cases o with
    | null => simp [toPyOpt, texts, ok_okE]
    | _ => simpa only [toPyOpt, reduceCtorEq, false_or] using h
theorem toPyBs_ok : ∀ l : List Branch, Ok (toPyBs dec l) ↔ wfBs l ∧ ∀ s ∈ textsBs l, Dec dec s
  | [] => by simp [toPyBs, wfBs, textsBs, ok_okE]
  | .mk e o :: l => by
    simp only [toPyBs, wfBs, textsBs, ok_bindE, ok_pureE, and_true, exists_and_right, ok_def, toPy_ok, toPyO_ok o, toPyBs_ok l, List.mem_append, or_imp,
      forall_and]
    grind
end

/-! ## What can be read -/

theorem bind_okE {α β : Type} {x : Except PyErr α} {f : α → Except PyErr β} {b : β} (h : (x >>= f) = .ok b) : ∃ a, x = .ok a ∧ f a = .ok b := by
  cases x with
  | error e => cases h
  | ok a => exact ⟨a, rfl, h⟩

theorem opOf_name (o : OpType) (n : Str) (h : o.toString = .ok n) : opOf n = o := by
  cases o <;> (cases h; rfl)

theorem symbOf_name (p : Option CodePos) (k : Symb) (enc : Str → Str) : view enc (pySymb k).up = .ofE (eraseE (.symb p k)) := by
  cases k <;> simp [pySymb, Py.up, view, noneView, eraseE, symbOf]

theorem kindOf_name (k : ClassKind) : kindOf (kindName k) = k := by cases k <;> rfl

/-- The members, if it is an empty struct. -/
def structE : Expr → Option (List IdDef)
  | .classDef _ _ _ .STRUCT [] _ _ => some []
  | _ => none

/-- The view of an expression. -/
structure IsE (v : View) (e : Expr) : Prop where
  he : v.e = eraseE e
  ho : v.o = .expr {} (eraseE e)
  hd : v.d = none
  hr : v.r = structE e

variable {enc : Str → Str}

theorem pyUnicode_view (henc : ∀ s t, dec s = some t → enc t = s) {s : Str} {p : Py} (h : pyUnicode dec s = .ok p) :
    view enc p.up = { View.ofE (.str none (cut s)) with s := some (cut s) } := by
  simp only [pyUnicode] at h
  split at h
  · rename_i t ht
    cases h
    simp only [Py.up, view, henc _ _ ht, cut]
  · cases h

theorem pyInt_view (henc : ∀ s t, dec s = some t → enc t = s) {pos : Option CodePos} {v : IntVal} {p : Py} (h : pyInt dec v = .ok p) :
    view enc p.up = .ofE (eraseE (.int pos v)) := by
  simp only [pyInt] at h
  obtain ⟨q, hq, h⟩ := bind_okE h
  cases h
  have hb : (view enc (if v.bits > 0 then .long v.bits else Py.none : Py).up).i.getD (-1) = (if v.bits > 0 then v.bits else -1) := by
    split <;> simp [Py.up, view, noneView, View.ofE]
  by_cases hx : v.int.base = -1
  · simp only [hx, ne_eq, not_true_eq_false, if_false] at hq ⊢
    cases hq
    simp only [Py.up, view, viewAttrs, instView, exprInst, attr, List.lookup]
    simp [noneView, View.ofE, eraseE, eraseInt, hx, intOf, hb]
  · simp only [hx, ne_eq, not_false_eq_true, if_true] at hq ⊢
    have hq := pyUnicode_view henc hq
    simp only [Py.up, view, viewAttrs, hq, instView, exprInst, attr, List.lookup]
    simp [View.ofE, eraseE, eraseInt, hx, intOf, hb]

theorem isE_ofE (e : Expr) : structE e = none → IsE (.ofE (eraseE e)) e := fun h => ⟨rfl, rfl, rfl, h.symm⟩

theorem mapM_none : ∀ (l : List View), (∀ v ∈ l, v.d = none) → l ≠ [] → l.mapM (·.d) = none
  | [], _, h => absurd rfl h
  | v :: l, h, _ => by simp [h v (by simp)]

/-- The view of a list of expressions. -/
structure IsEs (l : List View) (es : List Expr) : Prop where
  he : l.map (·.e) = eraseEs es
  hd : ∀ v ∈ l, v.d = none

theorem eraseEs_nil {l : List Expr} : eraseEs l = [] ↔ l = [] := by cases l <;> simp [eraseEs]

theorem isEs_ds {l : List View} {es : List Expr} (h : IsEs l es) : l.mapM (·.d) = if es = [] then some [] else none := by
  cases l with
  | nil =>
    have := h.he
    simp only [List.map_nil] at this
    rw [if_pos (eraseEs_nil.1 this.symm)]; rfl
  | cons v l =>
    have : es ≠ [] := by rintro rfl; have := h.he; simp [eraseEs] at this
    rw [if_neg this, mapM_none _ h.hd (by simp)]

/-- The view of a list of pairs. -/
def IsPs (l : List View) (ns : List (Option Str)) (vs : List Expr) : Prop :=
  l.map (·.p.1) = (erasePs ns vs).1 ∧ l.map (·.p.2) = (erasePs ns vs).2

mutual
theorem toPy_view (henc : ∀ s t, dec s = some t → enc t = s) : ∀ (e : Expr) (p : Py), toPy dec e = .ok p → IsE (view enc p.up) e
  | .null, p, h => by simp [toPy] at h
  | .id _ s, p, h => by
    simp only [toPy] at h
    obtain ⟨q, hq, h⟩ := bind_okE h
    cases h
    have hq := pyUnicode_view henc hq
    simp only [Py.up, view, viewAttrs, hq, instView, exprInst, attr, List.lookup]
    constructor <;> simp [View.ofE, eraseE, structE]
  | .int pos v, p, h => by
    simp only [toPy] at h
    rw [pyInt_view (pos := pos) henc h]
    exact isE_ofE _ rfl
  | .float _ t, p, h => by
    simp only [toPy] at h
    cases h
    simp only [Py.up, view]
    constructor <;> simp [View.ofE, eraseE, structE]
  | .str _ s, p, h => by
    simp only [toPy] at h
    rw [pyUnicode_view henc h]
    constructor <;> simp [View.ofE, eraseE, structE]
  | .symb pos k, p, h => by
    simp only [toPy] at h
    cases h
    rw [symbOf_name pos]
    exact isE_ofE _ rfl
  | .arr _ l, p, h => by
    simp only [toPy] at h
    obtain ⟨q, hq, h⟩ := bind_okE h
    cases h
    have hq := toPyList_view henc l q hq
    simp only [Py.up, view, listView]
    constructor <;> simp [hq.he, eraseE, structE]
  | .op _ o l, p, h => by
    obtain ⟨n, hn⟩ := opName_ok o
    simp only [toPy, hn] at h
    obtain ⟨q, hq, h⟩ := bind_okE h
    cases h
    have hq := toPyList_view henc l q hq
    simp only [Py.up, view, viewAttrs, listView, instView, exprInst, attr, List.lookup]
    constructor <;> simp [View.ofE, hq.he, opOf_name o n hn, eraseE, structE]
  | .notImpl pos, p, h => by
    simp only [toPy] at h
    cases h
    have hp : (view enc (pyPos pos)).pos = pos := by
      cases pos <;> simp only [pyPos, view, viewAttrs, instView, posOf, attr, List.lookup] <;> simp [noneView, View.ofE]
    simp only [Py.up, view, viewAttrs, instView, exprInst, attr, List.lookup]
    constructor <;> simp [View.ofE, hp, eraseE, structE]
  | .enumDef _ _ _ ns vs, p, h => by
    simp only [toPy] at h
    obtain ⟨q, hq, h⟩ := bind_okE h
    cases h
    have hq := toPyPairs_view henc ns vs q hq
    simp only [Py.up, view, viewAttrs, listView, instView, exprInst, attr, List.lookup]
    constructor <;> simp [View.ofE, ← hq.1, ← hq.2, eraseE, structE]
  | .physDef _ _ r ns vs, p, h => by
    simp only [toPy] at h
    obtain ⟨a, ha, h⟩ := bind_okE h
    obtain ⟨q, hq, h⟩ := bind_okE h
    cases h
    have ha := toPy_view henc r a ha
    have hq := toPyPairs_view henc (ns.map some) vs q hq
    simp only [Py.up, view, viewAttrs, listView, instView, exprInst, attr, List.lookup]
    constructor <;> simp [View.ofE, ← hq.1, ← hq.2, ha.he, eraseE, structE]
  | .classDef _ _ _ k l _ _, p, h => by
    simp only [toPy] at h
    obtain ⟨q, hq, h⟩ := bind_okE h
    cases h
    have hq := toPyList_view henc l q hq
    simp only [Py.up, view, viewAttrs, listView, instView, exprInst, attr, List.lookup]
    constructor
    · simp [View.ofE, hq.he, kindOf_name, eraseE]
    · simp [View.ofE, hq.he, kindOf_name, eraseE]
    · simp [View.ofE]
    · simp only [View.ofE, kindOf_name]
      cases k <;> cases l <;> simp [isEs_ds hq, structE, kindOf_name]
theorem toPyList_view (henc : ∀ s t, dec s = some t → enc t = s) : ∀ (l : List Expr) (p : List Py), toPyList dec l = .ok p → IsEs (views enc (upL p)) l
  | [], p, h => by
    simp only [toPyList] at h
    cases h
    constructor <;> simp [upL, views, eraseEs]
  | e :: l, p, h => by
    simp only [toPyList] at h
    obtain ⟨a, ha, h⟩ := bind_okE h
    obtain ⟨q, hq, h⟩ := bind_okE h
    cases h
    have ha := toPy_view henc e a ha
    have hq := toPyList_view henc l q hq
    constructor
    · simp [upL, views, eraseEs, ha.he, hq.he]
    · simp only [upL, views, List.mem_cons, forall_eq_or_imp]; exact ⟨ha.hd, hq.hd⟩
theorem toPyPairs_view (henc : ∀ s t, dec s = some t → enc t = s) : ∀ (ns : List (Option Str)) (vs : List Expr) (p : List Py),
    toPyPairs dec ns vs = .ok p → IsPs (views enc (upL p)) ns vs
  | [], vs, p, h => by
    simp only [toPyPairs] at h
    cases h
    simp [IsPs, upL, views, erasePs]
  | _ :: _, [], p, h => by
    simp only [toPyPairs] at h
    cases h
    simp [IsPs, upL, views, erasePs]
  | n :: ns, e :: l, p, h => by
    rw [toPyPairs_eq] at h
    obtain ⟨a, ha, h⟩ := bind_okE h
    obtain ⟨b, hb, h⟩ := bind_okE h
    obtain ⟨q, hq, h⟩ := bind_okE h
    cases h
    have hq := toPyPairs_view henc ns l q hq
    have h1 : (view enc a.up).s = n.map cut := by
      cases n with
      | none => simp only [pairName] at ha; cases ha; simp [Py.up, view, noneView, View.ofE]
      | some n => simp only [pairName] at ha; rw [pyUnicode_view henc ha]; rfl
    have h2 : optE (view enc b.up).e = optE (eraseE e) := by
      by_cases he : e = .null
      · subst he; simp only [pairVal] at hb; cases hb; simp [Py.up, view, noneView, View.ofE, optE, eraseE]
      · rw [pairVal_ne he] at hb; rw [(toPy_view henc e b (ubFail_ok hb)).he]
    simp only [IsPs, upL, Py.up, views, view, erasePs, List.map_cons, h1, h2, hq.1, hq.2, and_self]
end

theorem pyName_view (henc : ∀ s t, dec s = some t → enc t = s) {s : Str} {p : PyO} (h : pyName dec s = .ok p) :
    nameOf (view enc p) = eraseName s := by
  cases s with
  | nil => simp only [pyName] at h; cases h; rfl
  | cons c s =>
    simp only [pyName] at h
    obtain ⟨q, hq, h⟩ := bind_okE h
    cases h
    rw [pyUnicode_view henc hq]
    simp only [nameOf, eraseName]
    cases cut (c :: s) <;> rfl

theorem pyStrs_view (henc : ∀ s t, dec s = some t → enc t = s) : ∀ (l : List Str) (p : List PyO), pyStrs dec l = .ok p →
    (views enc p).map (·.s.getD []) = l.map cut
  | [], p, h => by simp only [pyStrs] at h; cases h; simp [views]
  | s :: l, p, h => by
    simp only [pyStrs] at h
    obtain ⟨q, hq, h⟩ := bind_okE h
    obtain ⟨r, hr, h⟩ := bind_okE h
    cases h
    simp [views, pyUnicode_view henc hq, pyStrs_view henc l r hr]

theorem pyExprs_view (henc : ∀ s t, dec s = some t → enc t = s) {l : List Expr} {p : PyO} (h : pyExprs dec l = .ok p) :
    (view enc p).es = some (eraseEs l) := by
  simp only [pyExprs] at h
  obtain ⟨q, hq, h⟩ := bind_okE h
  cases h
  simp [view, listView, (toPyList_view henc l q hq).he]

theorem pyOpt_view (henc : ∀ s t, dec s = some t → enc t = s) {e : Expr} {p : PyO} (h : pyOpt dec e = .ok p) :
    optE (view enc p).e = optE (eraseE e) ∧ (view enc p).r = structE e := by
  by_cases he : e = .null
  · subst he; simp only [pyOpt] at h; cases h; simp [view, noneView, View.ofE, optE, eraseE, structE]
  · have : pyOpt dec e = (do let e ← toPy dec e; return e.up) := by cases e <;> first | rfl | exact absurd rfl he
    rw [this] at h
    obtain ⟨q, hq, h⟩ := bind_okE h
    cases h
    have := toPy_view henc e q hq
    exact ⟨by rw [this.he], this.hr⟩

theorem pyDir_view {d : Dir} {p : PyO} (h : pyDir d = .ok p) : dirOf (view enc p).n = d := by
  cases d <;> simp only [pyDir, Dir.toString] at h <;> cases h <;> simp [view, dirOf]

theorem structE_obj (d : IdDef) : defObj (eraseId d) (structE d.value) = idObj (eraseId d) := by
  have : ∀ e, e = d.value → defObj (eraseId d) (structE e) = idObj (eraseId d) := by
    intro e he
    simp only [idObj, eraseId, ← he]
    cases e with
    | classDef p doc bt k ms pk v => cases k <;> cases ms <;> simp [structE, defObj, eraseE, eraseEs, optE]
    | symb p k => cases k <;> simp [structE, defObj, eraseE, optE]
    | _ => simp [structE, defObj, eraseE, optE]
  exact this _ rfl

theorem pyIdDef_view (henc : ∀ s t, dec s = some t → enc t = s) {d : IdDef} {p : PyO} (h : pyIdDef dec d = .ok p) :
    (view enc p).d = some (eraseId d) ∧ (view enc p).o = idObj (eraseId d) := by
  simp only [pyIdDef] at h
  obtain ⟨n, hn, h⟩ := bind_okE h
  obtain ⟨t, ht, h⟩ := bind_okE h
  obtain ⟨v, hv, h⟩ := bind_okE h
  obtain ⟨r, hr, h⟩ := bind_okE h
  cases h
  have hd : ∀ a, a = viewAttrs enc [(c! "name", n), (c! "type", t), (c! "value", v), (c! "is_latched", .bool d.latched), (c! "is_const", .bool d.const),
      (c! "is_static", .bool d.static), (c! "is_shared", .bool d.shared), (c! "is_alias", .bool d.alias_), (c! "direction", r)] →
      defOf a = eraseId d ∧ (attr a (c! "value")).r = structE d.value := by
    rintro a rfl
    simp only [viewAttrs, view, defOf, attr, List.lookup, eraseId]
    simp [pyName_view henc hn, pyOpt_view henc ht, pyOpt_view henc hv, pyDir_view hr]
  obtain ⟨h1, h2⟩ := hd _ rfl
  simp only [view, instView, h1, h2, structE_obj]
  simp

theorem pyIdDefs_view (henc : ∀ s t, dec s = some t → enc t = s) : ∀ (l : List IdDef) (p : List PyO), pyIdDefs dec l = .ok p →
    (views enc p).mapM (·.d) = some (l.map eraseId)
  | [], p, h => by simp only [pyIdDefs] at h; cases h; simp [views]
  | d :: l, p, h => by
    simp only [pyIdDefs] at h
    obtain ⟨q, hq, h⟩ := bind_okE h
    obtain ⟨r, hr, h⟩ := bind_okE h
    cases h
    simp [views, (pyIdDef_view henc hq).1, pyIdDefs_view henc l r hr]

theorem pyInfo_view (henc : ∀ s t, dec s = some t → enc t = s) {i : StmInfo} {a : List (Str × PyO)} (h : pyInfo dec i = .ok a) :
    ∃ l, a = [(c! "labels", .list l), (c! "in_preproc", .bool i.preproc)] ∧ (views enc l).map (·.s.getD []) = i.labels.map cut := by
  simp only [pyInfo] at h
  obtain ⟨q, hq, h⟩ := bind_okE h
  cases h
  exact ⟨q, rfl, pyStrs_view henc _ _ hq⟩

theorem pyEvents_view (henc : ∀ s t, dec s = some t → enc t = s) {l : Option (List Expr)} {p : PyO} (h : pyEvents dec l = .ok p) :
    (view enc p).es = eraseEvents l := by
  rcases l with _ | _ | ⟨e, l⟩ <;> simp only [pyEvents] at h
  · cases h; rfl
  · cases h; rfl
  · rw [pyExprs_view henc h]; rfl

theorem pySens_view (henc : ∀ s t, dec s = some t → enc t = s) {l : Option (List Expr)} {p : PyO} (h : pySens dec l = .ok p) :
    (view enc p).es = l.map eraseEs := by
  rcases l with _ | l <;> simp only [pySens] at h
  · cases h; rfl
  · rw [pyExprs_view henc h]; rfl

theorem joinOf_name (j : Join) : joinOf j.toStr = j := by cases j <;> rfl
theorem caseOf_name (j : CaseType) : caseOf j.toStr = j := by cases j <;> rfl
theorem uniqOf_name (u : Uniq) : uniqOf (view enc u.attr).n = u := by cases u <;> simp [Uniq.attr, view, noneView, View.ofE, uniqOf]
theorem triggerOf_name (u : Trigger) : triggerOf (view enc u.attr).n = u := by
  cases u <;> simp [Trigger.attr, view, noneView, View.ofE, triggerOf]

/-! The instances of the classes. -/

/-- The information about a statement with the labels `ls`. -/
def infoV (enc : Str → Str) (ls : List PyO) (b : Bool) : StmInfo := ⟨(views enc ls).map (·.s.getD []), b⟩

theorem view_fn (n : PyO) (b1 : Bool) (b2 : Bool) (b3 : Bool) (b4 : Bool) (b5 : Bool) (b6 : Bool) (ps : List PyO) (r : PyO) (c : List PyO) :
    (view enc (.inst (c! "HdlFunctionDef") [(c! "name", n), (c! "is_declaration_only", .bool b1), (c! "is_operator", .bool b2), (c! "is_static", .bool b3), (c! "is_task", .bool b4), (c! "is_virtual", .bool b5), (c! "is_impure", .bool b6), (c! "params", .list ps), (c! "return_t", r), (c! "body", .list c)])).o = .fn { name := nameOf (view enc n), ret := optE (view enc r).e, params := ((views enc ps).mapM fun v : View => v.d).getD [], operator := b2, static := b3, virt := b5, task := b4, declOnly := b1, impure := b6 } ((views enc c).map (·.o)) := by
  simp only [view, viewAttrs, instView, exprInst, stmInst, objInst, headOf, infoOf, attr, List.lookup, listView, infoV]
  simp

theorem view_compInst (n : PyO) (m : PyO) (g : PyO) (q : PyO) :
    (view enc (.inst (c! "HdlCompInst") [(c! "name", n), (c! "module_name", m), (c! "param_map", g), (c! "port_map", q)])).o = .inst (view enc n).e (view enc m).e ((view enc g).es.getD []) ((view enc q).es.getD []) := by
  simp only [view, viewAttrs, instView, exprInst, stmInst, objInst, headOf, infoOf, attr, List.lookup, listView, infoV]
  simp

theorem view_modDec (n : PyO) (g : List PyO) (q : List PyO) (l : List PyO) :
    (view enc (.inst (c! "HdlModuleDec") [(c! "name", n), (c! "params", .list g), (c! "ports", .list q), (c! "objs", .list l)])).o = .modDec (nameOf (view enc n)) (((views enc g).mapM fun v : View => v.d).getD []) (((views enc q).mapM fun v : View => v.d).getD []) ((views enc l).map (·.o)) := by
  simp only [view, viewAttrs, instView, exprInst, stmInst, objInst, headOf, infoOf, attr, List.lookup, listView, infoV]
  simp

theorem view_modDef (n : PyO) (m : PyO) (d : PyO) (l : List PyO) :
    (view enc (.inst (c! "HdlModuleDef") [(c! "name", n), (c! "module_name", m), (c! "dec", d), (c! "objs", .list l)])).o = .modDef (nameOf (view enc n)) (optE (view enc m).e) (optO (view enc d).o) ((views enc l).map (·.o)) := by
  simp only [view, viewAttrs, instView, exprInst, stmInst, objInst, headOf, infoOf, attr, List.lookup, listView, infoV]
  simp

theorem view_idspace (n : PyO) (l : List PyO) (d : Bool) :
    (view enc (.inst (c! "HdlValueIdspace") [(c! "name", n), (c! "objs", .list l), (c! "declaration_only", .bool d)])).o = .idspace (nameOf (view enc n)) d ((views enc l).map (·.o)) := by
  simp only [view, viewAttrs, instView, exprInst, stmInst, objInst, headOf, infoOf, attr, List.lookup, listView, infoV]
  simp

theorem view_library (n : PyO) :
    (view enc (.inst (c! "HdlLibrary") [(c! "name", n)])).o = .library (nameOf (view enc n)) := by
  simp only [view, viewAttrs, instView, exprInst, stmInst, objInst, headOf, infoOf, attr, List.lookup, listView, infoV]
  simp

theorem view_assign (s : PyO) (d : PyO) (t : PyO) (ev : PyO) (bl : Bool) (ls : List PyO) (b : Bool) :
    (view enc (.inst (c! "HdlStmAssign") [(c! "src", s), (c! "dst", d), (c! "time_delay", t), (c! "event_delay", ev), (c! "is_blocking", .bool bl), (c! "labels", .list ls), (c! "in_preproc", .bool b)])).o = .assign (infoV enc ls b) (view enc d).e (view enc s).e (optE (view enc t).e) (view enc ev).es bl := by
  simp only [view, viewAttrs, instView, exprInst, stmInst, objInst, headOf, infoOf, attr, List.lookup, listView, infoV]
  simp

theorem view_block (j : Str) (l : List PyO) (ls : List PyO) (b : Bool) :
    (view enc (.inst (c! "HdlStmBlock") [(c! "join_t", .enum (c! "HdlStmBlockJoinType") j), (c! "body", .list l), (c! "labels", .list ls), (c! "in_preproc", .bool b)])).o = .block (infoV enc ls b) (joinOf j) ((views enc l).map (·.o)) := by
  simp only [view, viewAttrs, instView, exprInst, stmInst, objInst, headOf, infoOf, attr, List.lookup, listView, infoV]
  simp

theorem view_case (u : PyO) (t : Str) (s : PyO) (cs : List PyO) (d : PyO) (ls : List PyO) (b : Bool) :
    (view enc (.inst (c! "HdlStmCase") [(c! "uniq_constrain", u), (c! "type", .enum (c! "HdlStmCaseType") t), (c! "switch_on", s), (c! "cases", .list cs), (c! "default", d), (c! "labels", .list ls), (c! "in_preproc", .bool b)])).o = .case (infoV enc ls b) (uniqOf (view enc u).n) (caseOf t) (view enc s).e ((views enc cs).map (·.br)) (optO (view enc d).o) := by
  simp only [view, viewAttrs, instView, exprInst, stmInst, objInst, headOf, infoOf, attr, List.lookup, listView, infoV]
  simp

theorem view_for (i : PyO) (c : PyO) (s : PyO) (x : PyO) (ls : List PyO) (b : Bool) :
    (view enc (.inst (c! "HdlStmFor") [(c! "init", i), (c! "cond", c), (c! "step", s), (c! "body", x), (c! "labels", .list ls), (c! "in_preproc", .bool b)])).o = .for_ (infoV enc ls b) (view enc i).o (view enc c).e (view enc s).o (view enc x).o := by
  simp only [view, viewAttrs, instView, exprInst, stmInst, objInst, headOf, infoOf, attr, List.lookup, listView, infoV]
  simp

theorem view_forIn (vs : List PyO) (c : PyO) (x : PyO) (ls : List PyO) (b : Bool) :
    (view enc (.inst (c! "HdlStmForIn") [(c! "var_defs", .list vs), (c! "collection", c), (c! "body", x), (c! "labels", .list ls), (c! "in_preproc", .bool b)])).o = .forIn (infoV enc ls b) ((views enc vs).map (·.o)) (view enc c).e (view enc x).o := by
  simp only [view, viewAttrs, instView, exprInst, stmInst, objInst, headOf, infoOf, attr, List.lookup, listView, infoV]
  simp

theorem view_repeat (n : PyO) (x : PyO) (ls : List PyO) (b : Bool) :
    (view enc (.inst (c! "HdlStmRepeat") [(c! "n", n), (c! "body", x), (c! "labels", .list ls), (c! "in_preproc", .bool b)])).o = .repeat_ (infoV enc ls b) (view enc n).e (view enc x).o := by
  simp only [view, viewAttrs, instView, exprInst, stmInst, objInst, headOf, infoOf, attr, List.lookup, listView, infoV]
  simp

theorem view_while (n : PyO) (x : PyO) (ls : List PyO) (b : Bool) :
    (view enc (.inst (c! "HdlStmWhile") [(c! "cond", n), (c! "body", x), (c! "labels", .list ls), (c! "in_preproc", .bool b)])).o = .while_ (infoV enc ls b) (view enc n).e (view enc x).o := by
  simp only [view, viewAttrs, instView, exprInst, stmInst, objInst, headOf, infoOf, attr, List.lookup, listView, infoV]
  simp

theorem view_if (c : PyO) (t : PyO) (el : List PyO) (f : PyO) (ls : List PyO) (b : Bool) :
    (view enc (.inst (c! "HdlStmIf") [(c! "cond", c), (c! "if_true", t), (c! "elifs", .list el), (c! "if_false", f), (c! "labels", .list ls), (c! "in_preproc", .bool b)])).o = .if_ (infoV enc ls b) (view enc c).e (view enc t).o ((views enc el).map (·.br)) (optO (view enc f).o) := by
  simp only [view, viewAttrs, instView, exprInst, stmInst, objInst, headOf, infoOf, attr, List.lookup, listView, infoV]
  simp

theorem view_process (t : PyO) (s : PyO) (x : PyO) (ls : List PyO) (b : Bool) :
    (view enc (.inst (c! "HdlStmProcess") [(c! "trigger_constrain", t), (c! "sensitivity", s), (c! "body", x), (c! "labels", .list ls), (c! "in_preproc", .bool b)])).o = .process (infoV enc ls b) (triggerOf (view enc t).n) (view enc s).es (view enc x).o := by
  simp only [view, viewAttrs, instView, exprInst, stmInst, objInst, headOf, infoOf, attr, List.lookup, listView, infoV]
  simp

theorem view_break  (ls : List PyO) (b : Bool) :
    (view enc (.inst (c! "HdlStmBreak") [(c! "labels", .list ls), (c! "in_preproc", .bool b)])).o = .break_ (infoV enc ls b) := by
  simp only [view, viewAttrs, instView, exprInst, stmInst, objInst, headOf, infoOf, attr, List.lookup, listView, infoV]
  simp

theorem view_continue  (ls : List PyO) (b : Bool) :
    (view enc (.inst (c! "HdlStmContinue") [(c! "labels", .list ls), (c! "in_preproc", .bool b)])).o = .continue_ (infoV enc ls b) := by
  simp only [view, viewAttrs, instView, exprInst, stmInst, objInst, headOf, infoOf, attr, List.lookup, listView, infoV]
  simp

theorem view_nop  (ls : List PyO) (b : Bool) :
    (view enc (.inst (c! "HdlStmNop") [(c! "labels", .list ls), (c! "in_preproc", .bool b)])).o = .nop (infoV enc ls b) := by
  simp only [view, viewAttrs, instView, exprInst, stmInst, objInst, headOf, infoOf, attr, List.lookup, listView, infoV]
  simp

theorem view_import (l : PyO) (ls : List PyO) (b : Bool) :
    (view enc (.inst (c! "HdlImport") [(c! "path", l), (c! "labels", .list ls), (c! "in_preproc", .bool b)])).o = .import_ (infoV enc ls b) ((view enc l).es.getD []) := by
  simp only [view, viewAttrs, instView, exprInst, stmInst, objInst, headOf, infoOf, attr, List.lookup, listView, infoV]
  simp

theorem view_return (v : PyO) (ls : List PyO) (b : Bool) :
    (view enc (.inst (c! "HdlStmReturn") [(c! "val", v), (c! "labels", .list ls), (c! "in_preproc", .bool b)])).o = .return_ (infoV enc ls b) (optE (view enc v).e) := by
  simp only [view, viewAttrs, instView, exprInst, stmInst, objInst, headOf, infoOf, attr, List.lookup, listView, infoV]
  simp

theorem view_wait (l : PyO) (ls : List PyO) (b : Bool) :
    (view enc (.inst (c! "HdlStmWait") [(c! "val", l), (c! "labels", .list ls), (c! "in_preproc", .bool b)])).o = .wait (infoV enc ls b) ((view enc l).es.getD []) := by
  simp only [view, viewAttrs, instView, exprInst, stmInst, objInst, headOf, infoOf, attr, List.lookup, listView, infoV]
  simp

mutual
theorem toPyO_view (henc : ∀ s t, dec s = some t → enc t = s) : ∀ (o : Obj) (p : PyO), toPyO dec o = .ok p → (view enc p).o = erase o
  | .null, p, h => by simp [toPyO] at h
  | .id d, p, h => by simp only [toPyO] at h; simp only [erase]; exact (pyIdDef_view henc h).2
  | .record n ms, p, h => by
    simp only [toPyO] at h
    obtain ⟨a, ha, h⟩ := bind_okE h
    obtain ⟨b, hb, h⟩ := bind_okE h
    cases h
    simp only [view, viewAttrs, instView, exprInst, defOf, attr, List.lookup, listView, pyIdDefs_view henc _ _ hb, pySymb, Py.up, erase]
    simp [pyName_view henc ha, View.ofE, optE, symbOf, kindOf, dirOf, defObj, plainType]
  | .fn hd b, p, h => by
    simp only [toPyO] at h
    obtain ⟨n, hn, h⟩ := bind_okE h
    obtain ⟨ps, hps, h⟩ := bind_okE h
    obtain ⟨r, hr, h⟩ := bind_okE h
    obtain ⟨c, hc, h⟩ := bind_okE h
    cases h
    simp only [view_fn, pyIdDefs_view henc _ _ hps, toPyOs_view henc b c hc, pyName_view henc hn, pyOpt_view henc hr, erase, Option.getD_some]
  | .inst n m g q, p, h => by
    simp only [toPyO] at h
    obtain ⟨a, ha, h⟩ := bind_okE h
    obtain ⟨b, hb, h⟩ := bind_okE h
    obtain ⟨c, hc, h⟩ := bind_okE h
    obtain ⟨d, hd, h⟩ := bind_okE h
    cases h
    simp only [view_compInst, (toPy_view henc _ _ ha).he, (toPy_view henc _ _ hb).he, pyExprs_view henc hc, pyExprs_view henc hd, erase, Option.getD_some]
  | .modDec n g q l, p, h => by
    simp only [toPyO] at h
    obtain ⟨a, ha, h⟩ := bind_okE h
    obtain ⟨b, hb, h⟩ := bind_okE h
    obtain ⟨c, hc, h⟩ := bind_okE h
    obtain ⟨d, hd, h⟩ := bind_okE h
    cases h
    simp only [view_modDec, pyIdDefs_view henc _ _ hb, pyIdDefs_view henc _ _ hc, toPyOs_view henc l d hd, pyName_view henc ha, erase, Option.getD_some]
  | .modDef n m d l, p, h => by
    simp only [toPyO] at h
    obtain ⟨a, ha, h⟩ := bind_okE h
    obtain ⟨b, hb, h⟩ := bind_okE h
    obtain ⟨c, hc, h⟩ := bind_okE h
    obtain ⟨e, he, h⟩ := bind_okE h
    cases h
    simp only [view_modDef, toPyOs_view henc l e he, pyName_view henc ha, pyOpt_view henc hb, toPyOpt_view henc d c hc, erase, Option.getD_some]
  | .assign i d s dl ev bl, p, h => by
    simp only [toPyO] at h
    obtain ⟨a, ha, h⟩ := bind_okE h
    obtain ⟨b, hb, h⟩ := bind_okE h
    obtain ⟨c, hc, h⟩ := bind_okE h
    obtain ⟨e, he, h⟩ := bind_okE h
    obtain ⟨j, hj, h⟩ := bind_okE h
    cases h
    obtain ⟨ls, rfl, hls⟩ := pyInfo_view (enc := enc) henc hj
    simp only [List.cons_append, List.nil_append, view_assign, (toPy_view henc _ _ (ubFail_ok ha)).he, (toPy_view henc _ _ (ubFail_ok hb)).he, pyOpt_view henc (ubFail_ok hc), pyEvents_view henc he, infoV, hls, eraseInfo, erase, Option.getD_some]
  | .block i j l, p, h => by
    simp only [toPyO] at h
    obtain ⟨a, ha, h⟩ := bind_okE h
    obtain ⟨q, hq, h⟩ := bind_okE h
    cases h
    obtain ⟨ls, rfl, hls⟩ := pyInfo_view (enc := enc) henc hq
    simp only [List.cons_append, List.nil_append, view_block, toPyOs_view henc l a ha, joinOf_name, infoV, hls, eraseInfo, erase, Option.getD_some]
  | .case i u t s cs d, p, h => by
    simp only [toPyO] at h
    obtain ⟨a, ha, h⟩ := bind_okE h
    obtain ⟨b, hb, h⟩ := bind_okE h
    obtain ⟨c, hc, h⟩ := bind_okE h
    obtain ⟨q, hq, h⟩ := bind_okE h
    cases h
    obtain ⟨ls, rfl, hls⟩ := pyInfo_view (enc := enc) henc hq
    simp only [List.cons_append, List.nil_append, view_case, toPyBs_view henc cs b hb, (toPy_view henc _ _ ha).he, uniqOf_name, caseOf_name, toPyOpt_view henc d c hc, infoV, hls, eraseInfo, erase, Option.getD_some]
  | .expr i e, p, h => by
    simp only [toPyO] at h
    obtain ⟨a, ha, h⟩ := bind_okE h
    cases h
    simp only [erase]
    exact (toPy_view henc e a ha).ho
  | .for_ i x c s b, p, h => by
    simp only [toPyO] at h
    obtain ⟨_, -, h⟩ := bind_okE h
    obtain ⟨a1, h1, h⟩ := bind_okE h
    obtain ⟨a2, h2, h⟩ := bind_okE h
    obtain ⟨_, -, h⟩ := bind_okE h
    obtain ⟨a3, h3, h⟩ := bind_okE h
    obtain ⟨a4, h4, h⟩ := bind_okE h
    obtain ⟨q, hq, h⟩ := bind_okE h
    cases h
    obtain ⟨ls, rfl, hls⟩ := pyInfo_view (enc := enc) henc hq
    simp only [List.cons_append, List.nil_append, view_for, (toPy_view henc _ _ h2).he, toPyO_view henc x a1 h1, toPyO_view henc s a3 h3, toPyO_view henc b a4 h4, infoV, hls, eraseInfo, erase, Option.getD_some]
  | .forIn i vs c b, p, h => by
    simp only [toPyO] at h
    obtain ⟨a1, h1, h⟩ := bind_okE h
    obtain ⟨a2, h2, h⟩ := bind_okE h
    obtain ⟨a3, h3, h⟩ := bind_okE h
    obtain ⟨q, hq, h⟩ := bind_okE h
    cases h
    obtain ⟨ls, rfl, hls⟩ := pyInfo_view (enc := enc) henc hq
    simp only [List.cons_append, List.nil_append, view_forIn, toPyOs_view henc vs a1 h1, (toPy_view henc _ _ h2).he, toPyO_view henc b a3 h3, infoV, hls, eraseInfo, erase, Option.getD_some]
  | .repeat_ i n b, p, h => by
    simp only [toPyO] at h
    obtain ⟨a1, h1, h⟩ := bind_okE h
    obtain ⟨a2, h2, h⟩ := bind_okE h
    obtain ⟨q, hq, h⟩ := bind_okE h
    cases h
    obtain ⟨ls, rfl, hls⟩ := pyInfo_view (enc := enc) henc hq
    simp only [List.cons_append, List.nil_append, view_repeat, (toPy_view henc _ _ h1).he, toPyO_view henc b a2 h2, infoV, hls, eraseInfo, erase, Option.getD_some]
  | .while_ i c b, p, h => by
    simp only [toPyO] at h
    obtain ⟨a1, h1, h⟩ := bind_okE h
    obtain ⟨_, -, h⟩ := bind_okE h
    obtain ⟨a2, h2, h⟩ := bind_okE h
    obtain ⟨q, hq, h⟩ := bind_okE h
    cases h
    obtain ⟨ls, rfl, hls⟩ := pyInfo_view (enc := enc) henc hq
    simp only [List.cons_append, List.nil_append, view_while, (toPy_view henc _ _ h1).he, toPyO_view henc b a2 h2, infoV, hls, eraseInfo, erase, Option.getD_some]
  | .doWhile _ _ _, p, h => by simp [toPyO] at h
  | .if_ i c t el f, p, h => by
    simp only [toPyO] at h
    obtain ⟨a1, h1, h⟩ := bind_okE h
    obtain ⟨a2, h2, h⟩ := bind_okE h
    obtain ⟨a3, h3, h⟩ := bind_okE h
    obtain ⟨a4, h4, h⟩ := bind_okE h
    obtain ⟨q, hq, h⟩ := bind_okE h
    cases h
    obtain ⟨ls, rfl, hls⟩ := pyInfo_view (enc := enc) henc hq
    simp only [List.cons_append, List.nil_append, view_if, toPyBs_view henc el a3 h3, (toPy_view henc _ _ h1).he, toPyO_view henc t a2 h2, toPyOpt_view henc f a4 h4, infoV, hls, eraseInfo, erase, Option.getD_some]
  | .process i t s b, p, h => by
    simp only [toPyO] at h
    obtain ⟨a1, h1, h⟩ := bind_okE h
    obtain ⟨_, -, h⟩ := bind_okE h
    obtain ⟨a2, h2, h⟩ := bind_okE h
    obtain ⟨q, hq, h⟩ := bind_okE h
    cases h
    obtain ⟨ls, rfl, hls⟩ := pyInfo_view (enc := enc) henc hq
    simp only [List.cons_append, List.nil_append, view_process, pySens_view henc h1, toPyO_view henc b a2 h2, triggerOf_name, infoV, hls, eraseInfo, erase, Option.getD_some]
  | .break_ i, p, h => by
    simp only [toPyO] at h
    obtain ⟨q, hq, h⟩ := bind_okE h
    cases h
    obtain ⟨ls, rfl, hls⟩ := pyInfo_view (enc := enc) henc hq
    simp only [view_break, infoV, hls, eraseInfo, erase, Option.getD_some]
  | .continue_ i, p, h => by
    simp only [toPyO] at h
    obtain ⟨q, hq, h⟩ := bind_okE h
    cases h
    obtain ⟨ls, rfl, hls⟩ := pyInfo_view (enc := enc) henc hq
    simp only [view_continue, infoV, hls, eraseInfo, erase, Option.getD_some]
  | .nop i, p, h => by
    simp only [toPyO] at h
    obtain ⟨q, hq, h⟩ := bind_okE h
    cases h
    obtain ⟨ls, rfl, hls⟩ := pyInfo_view (enc := enc) henc hq
    simp only [view_nop, infoV, hls, eraseInfo, erase, Option.getD_some]
  | .import_ i l, p, h => by
    simp only [toPyO] at h
    obtain ⟨a1, h1, h⟩ := bind_okE h
    obtain ⟨q, hq, h⟩ := bind_okE h
    cases h
    obtain ⟨ls, rfl, hls⟩ := pyInfo_view (enc := enc) henc hq
    simp only [List.cons_append, List.nil_append, view_import, pyExprs_view henc h1, infoV, hls, eraseInfo, erase, Option.getD_some]
  | .return_ i v, p, h => by
    simp only [toPyO] at h
    obtain ⟨a1, h1, h⟩ := bind_okE h
    obtain ⟨q, hq, h⟩ := bind_okE h
    cases h
    obtain ⟨ls, rfl, hls⟩ := pyInfo_view (enc := enc) henc hq
    simp only [List.cons_append, List.nil_append, view_return, pyOpt_view henc h1, infoV, hls, eraseInfo, erase, Option.getD_some]
  | .wait i l, p, h => by
    simp only [toPyO] at h
    obtain ⟨a1, h1, h⟩ := bind_okE h
    obtain ⟨q, hq, h⟩ := bind_okE h
    cases h
    obtain ⟨ls, rfl, hls⟩ := pyInfo_view (enc := enc) henc hq
    simp only [List.cons_append, List.nil_append, view_wait, pyExprs_view henc h1, infoV, hls, eraseInfo, erase, Option.getD_some]
  | .idspace n d l, p, h => by
    simp only [toPyO] at h
    obtain ⟨a, ha, h⟩ := bind_okE h
    obtain ⟨b, hb, h⟩ := bind_okE h
    cases h
    simp only [view_idspace, toPyOs_view henc l b hb, pyName_view henc ha, erase, Option.getD_some]
  | .library n, p, h => by
    simp only [toPyO] at h
    obtain ⟨a, ha, h⟩ := bind_okE h
    cases h
    simp only [view_library, pyName_view henc ha, erase, Option.getD_some]
theorem toPyOs_view (henc : ∀ s t, dec s = some t → enc t = s) : ∀ (l : List Obj) (p : List PyO), toPyOs dec l = .ok p →
    (views enc p).map (·.o) = eraseOs l
  | [], p, h => by simp only [toPyOs] at h; cases h; simp [views, eraseOs]
  | o :: l, p, h => by
    simp only [toPyOs] at h
    obtain ⟨a, ha, h⟩ := bind_okE h
    obtain ⟨b, hb, h⟩ := bind_okE h
    cases h
    simp [views, eraseOs, toPyO_view henc o a ha, toPyOs_view henc l b hb]
theorem toPyOpt_view (henc : ∀ s t, dec s = some t → enc t = s) : ∀ (o : Obj) (p : PyO), toPyOpt dec o = .ok p →
    optO (view enc p).o = optO (erase o)
  | o, p, h => by
    have hh := toPyO_view henc o p
    cases o with
    | null => simp only [toPyOpt] at h; cases h; simp [view, noneView, View.ofE, erase, optO]
    | _ => simp only [toPyOpt] at h; rw [hh h]
theorem toPyBs_view (henc : ∀ s t, dec s = some t → enc t = s) : ∀ (l : List Branch) (p : List PyO), toPyBs dec l = .ok p →
    (views enc p).map (·.br) = eraseBs l
  | [], p, h => by simp only [toPyBs] at h; cases h; simp [views, eraseBs]
  | .mk e o :: l, p, h => by
    simp only [toPyBs] at h
    obtain ⟨a, ha, h⟩ := bind_okE h
    obtain ⟨b, hb, h⟩ := bind_okE h
    obtain ⟨c, hc, h⟩ := bind_okE h
    cases h
    simp [views, view, eraseBs, (toPy_view henc e a ha).he, toPyO_view henc o b hb, toPyBs_view henc l c hc]
end

end Verif
