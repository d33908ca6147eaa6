import Verif.ToPyObjLemmas
/-!
# The visible part of an object is converted to the same Python object
-/
namespace Verif
open Spec

theorem takeWhile_idem {α : Type} (p : α → Bool) (l : List α) : (l.takeWhile p).takeWhile p = l.takeWhile p := by
  induction l with
  | nil => rfl
  | cons a l ih => cases h : p a <;> simp [List.takeWhile_cons, h, ih]

theorem cut_cut (s : Str) : cut (cut s) = cut s := takeWhile_idem _ s

variable {dec : Str → Option Str}

theorem pyUnicode_cut (s : Str) : pyUnicode dec (cut s) = pyUnicode dec s := by
  have := cut_cut s
  simp only [cut] at this
  simp only [pyUnicode, cut, this]

theorem pyInt_erase (v : IntVal) : pyInt dec (eraseInt v) = pyInt dec v := by
  by_cases h : v.int.base = -1 <;> by_cases hb : v.bits > 0 <;> simp [pyInt, eraseInt, h, hb, pyUnicode_cut]

theorem pairVal_opt {e : Expr} (he : toPy dec (eraseE e) = toPy dec e) : pairVal dec (optE (eraseE e)) = pairVal dec e := by
  cases e with
  | symb p k => cases k <;> simp [eraseE, optE, pairVal, toPy, pySymb, ubFail]
  | null => simp [eraseE, optE]
  | _ => first | (simp only [eraseE, optE, pairVal] at he ⊢; done) | (simp only [eraseE, optE, pairVal] at he ⊢; exact congrArg ubFail he)

theorem erasePs_some : ∀ (ns : List Str) (vs : List Expr), ((erasePs (ns.map some) vs).1.map (·.getD [])).map some = (erasePs (ns.map some) vs).1
  | [], vs => by simp [erasePs]
  | _ :: _, [] => by simp [erasePs]
  | n :: ns, e :: l => by simp only [List.map_cons, erasePs, Option.map_some, Option.getD_some, erasePs_some ns l]

mutual
theorem toPy_erase : ∀ e : Expr, toPy dec (eraseE e) = toPy dec e
  | .null => by simp [eraseE]
  | .id _ s => by simp [eraseE, toPy, pyUnicode_cut]
  | .int _ v => by simp [eraseE, toPy, pyInt_erase]
  | .float _ _ => by simp [eraseE, toPy]
  | .str _ s => by simp [eraseE, toPy, pyUnicode_cut]
  | .symb _ k => by cases k <;> simp [eraseE, toPy, pySymb]
  | .arr _ l => by simp [eraseE, toPy, toPyList_erase l]
  | .op _ o l => by simp [eraseE, toPy, toPyList_erase l]
  | .notImpl _ => by simp [eraseE, toPy]
  | .enumDef _ _ _ ns vs => by simp [eraseE, toPy, toPyPairs_erase ns vs]
  | .physDef _ _ r ns vs => by
    simp only [eraseE, toPy, toPy_erase r, erasePs_some, toPyPairs_erase (ns.map some) vs]
  | .classDef _ _ _ _ l _ _ => by simp [eraseE, toPy, toPyList_erase l]
theorem toPyList_erase : ∀ l : List Expr, toPyList dec (eraseEs l) = toPyList dec l
  | [] => by simp [eraseEs]
  | e :: l => by simp only [eraseEs, toPyList, toPy_erase e, toPyList_erase l]
theorem toPyPairs_erase : ∀ (ns : List (Option Str)) (vs : List Expr), toPyPairs dec (erasePs ns vs).1 (erasePs ns vs).2 = toPyPairs dec ns vs
  | [], vs => by simp [erasePs, toPyPairs]
  | _ :: _, [] => by simp [erasePs, toPyPairs]
  | n :: ns, e :: l => by
    have hn : pairName dec (n.map cut) = pairName dec n := by cases n <;> simp [pairName, pyUnicode_cut]
    simp only [erasePs, toPyPairs_eq, hn, pairVal_opt (toPy_erase e), toPyPairs_erase ns l]
end

theorem pyName_cons {s : Str} (h : s ≠ []) : pyName dec s = (do let s ← pyUnicode dec s; return s.up) := by
  cases s with
  | nil => exact absurd rfl h
  | cons => rfl

theorem pyName_erase (s : Str) : pyName dec (eraseName s) = pyName dec s := by
  cases s with
  | nil => rfl
  | cons c s =>
    have h : eraseName (c :: s) ≠ [] ∧ cut (eraseName (c :: s)) = cut (c :: s) := by
      simp only [eraseName]
      cases hc : cut (c :: s) with
      | nil => simp [cut]
      | cons d t => simp only [ne_eq, reduceCtorEq, not_false_eq_true, true_and]; rw [← hc, cut_cut]
    rw [pyName_cons h.1, pyName_cons (by simp), ← pyUnicode_cut, h.2, pyUnicode_cut]

theorem pyOpt_ne {e : Expr} (h : e ≠ .null) : pyOpt dec e = (do let e ← toPy dec e; return e.up) := by
  cases e <;> first | rfl | exact absurd rfl h

theorem pyOpt_erase (e : Expr) : pyOpt dec (optE (eraseE e)) = pyOpt dec e := by
  have he := toPy_erase (dec := dec) e
  cases e with
  | symb p k => cases k <;> simp [eraseE, optE, pyOpt, toPy, pySymb, Py.up, bind, Except.bind, pure, Except.pure]
  | null => simp [eraseE, optE]
  | _ => first | (simp only [eraseE, optE, pyOpt] at he ⊢; done) | (simp only [eraseE, optE, pyOpt] at he ⊢; rw [he])

theorem pyIdDef_erase (d : IdDef) : pyIdDef dec (eraseId d) = pyIdDef dec d := by
  simp only [pyIdDef, eraseId, pyName_erase, pyOpt_erase]

theorem pyIdDefs_erase (l : List IdDef) : pyIdDefs dec (l.map eraseId) = pyIdDefs dec l := by
  induction l with
  | nil => rfl
  | cons d l ih => simp only [List.map_cons, pyIdDefs, pyIdDef_erase, ih]

theorem pyInfo_erase (i : StmInfo) : pyInfo dec (eraseInfo i) = pyInfo dec i := by
  have : ∀ l : List Str, pyStrs dec (l.map cut) = pyStrs dec l := by
    intro l
    induction l with
    | nil => rfl
    | cons s l ih => simp only [List.map_cons, pyStrs, pyUnicode_cut, ih]
  simp only [pyInfo, eraseInfo, this]

theorem pyExprs_erase (l : List Expr) : pyExprs dec (eraseEs l) = pyExprs dec l := by
  simp only [pyExprs, toPyList_erase]

theorem pyEvents_erase (l : Option (List Expr)) : pyEvents dec (eraseEvents l) = pyEvents dec l := by
  rcases l with _ | _ | ⟨e, l⟩
  · rfl
  · rfl
  · have := pyExprs_erase (dec := dec) (e :: l)
    simp only [eraseEs] at this
    simp only [eraseEvents, eraseEs, pyEvents, this]

theorem pySens_erase (l : Option (List Expr)) : pySens dec (l.map eraseEs) = pySens dec l := by
  rcases l with _ | l
  · rfl
  · simp only [Option.map_some, pySens, pyExprs_erase]

theorem erase_null (o : Obj) : erase o = .null ↔ o = .null := by
  cases o with
  | id d =>
    simp only [erase, reduceCtorEq, iff_false, idObj]
    split
    · split <;> simp
    · simp
  | _ => simp [erase]

theorem notNull_erase (o : Obj) : notNull (erase o) = notNull o := by
  by_cases h : o = .null
  · subst h; simp [erase]
  · have : ∀ x : Obj, x ≠ .null → notNull x = .ok () := by intro x hx; cases x <;> first | rfl | exact absurd rfl hx
    rw [this _ h, this _ (mt (erase_null o).1 h)]

theorem toPyO_idObj (d : IdDef) : toPyO dec (idObj d) = pyIdDef dec d := by
  obtain ⟨n, t, v, b1, b2, b3, b4, b5, dir⟩ := d
  simp only [idObj]
  split
  · split
    · rename_i hp
      simp only [plainType] at hp
      split at hp
      · simp only [Bool.and_eq_true, Bool.not_eq_true', beq_iff_eq] at hp
        obtain ⟨⟨⟨⟨⟨rfl, rfl⟩, rfl⟩, rfl⟩, rfl⟩, rfl⟩ := hp
        simp [toPyO, pyIdDef, pyIdDefs, pyOpt, toPy, toPyList, pyDir, Dir.toString, Py.up, upL, kindName, bind, Except.bind, pure, Except.pure]
      · cases hp
    · simp [toPyO]
  · simp [toPyO]

theorem toPyOpt_ne {o : Obj} (h : o ≠ .null) : toPyOpt dec o = toPyO dec o := by
  cases o <;> first | exact absurd rfl h | simp only [toPyOpt]

theorem toPyOpt_optO (o : Obj) (h : toPyO dec (erase o) = toPyO dec o) : toPyOpt dec (optO (erase o)) = toPyOpt dec o := by
  by_cases ho : o = .null
  · subst ho; simp [erase, optO]
  · rw [toPyOpt_ne ho, ← h]
    have hn := mt (erase_null o).1 ho
    generalize erase o = x at hn
    simp only [optO]
    split
    · simp [toPyOpt, toPyO, toPy, pySymb, Py.up, bind, Except.bind, pure, Except.pure]
    · exact toPyOpt_ne hn

mutual
theorem toPyO_erase : ∀ o : Obj, toPyO dec (erase o) = toPyO dec o
  | .null => by simp [erase]
  | .id d => by simp only [erase, toPyO_idObj, toPyO, pyIdDef_erase]
  | .record n ms => by simp only [erase, toPyO, pyName_erase, pyIdDefs_erase]
  | .fn h b => by simp only [erase, toPyO, pyName_erase, pyIdDefs_erase, pyOpt_erase, toPyOs_erase b]
  | .inst n m g p => by simp only [erase, toPyO, toPy_erase, pyExprs_erase]
  | .modDec n g p l => by simp only [erase, toPyO, pyName_erase, pyIdDefs_erase, toPyOs_erase l]
  | .modDef n m d l => by simp only [erase, toPyO, pyName_erase, pyOpt_erase, toPyOpt_optO d (toPyO_erase d), toPyOs_erase l]
  | .assign i d s dl ev b => by simp only [erase, toPyO, toPy_erase, pyOpt_erase, pyEvents_erase, pyInfo_erase]
  | .block i j l => by simp only [erase, toPyO, toPyOs_erase l, pyInfo_erase]
  | .case i u t s cs d => by simp only [erase, toPyO, toPy_erase, toPyBs_erase cs, toPyOpt_optO d (toPyO_erase d), pyInfo_erase]
  | .expr _ e => by simp only [erase, toPyO, toPy_erase]
  | .for_ i a c s b => by simp only [erase, toPyO, toPy_erase, notNull_erase, toPyO_erase a, toPyO_erase s, toPyO_erase b, pyInfo_erase]
  | .forIn i vs c b => by simp only [erase, toPyO, toPy_erase, toPyOs_erase vs, toPyO_erase b, pyInfo_erase]
  | .repeat_ i n b => by simp only [erase, toPyO, toPy_erase, toPyO_erase b, pyInfo_erase]
  | .while_ i c b => by simp only [erase, toPyO, toPy_erase, notNull_erase, toPyO_erase b, pyInfo_erase]
  | .doWhile i b c => by simp only [erase, toPyO]
  | .if_ i c t el f => by simp only [erase, toPyO, toPy_erase, toPyO_erase t, toPyBs_erase el, toPyOpt_optO f (toPyO_erase f), pyInfo_erase]
  | .process i t s b => by simp only [erase, toPyO, pySens_erase, notNull_erase, toPyO_erase b, pyInfo_erase]
  | .break_ i => by simp only [erase, toPyO, pyInfo_erase]
  | .continue_ i => by simp only [erase, toPyO, pyInfo_erase]
  | .nop i => by simp only [erase, toPyO, pyInfo_erase]
  | .import_ i l => by simp only [erase, toPyO, pyExprs_erase, pyInfo_erase]
  | .return_ i v => by simp only [erase, toPyO, pyOpt_erase, pyInfo_erase]
  | .wait i l => by simp only [erase, toPyO, pyExprs_erase, pyInfo_erase]
  | .idspace n d l => by simp only [erase, toPyO, pyName_erase, toPyOs_erase l]
  | .library n => by simp only [erase, toPyO, pyName_erase]
theorem toPyOs_erase : ∀ l : List Obj, toPyOs dec (eraseOs l) = toPyOs dec l
  | [] => by simp [eraseOs]
  | o :: l => by simp only [eraseOs, toPyOs, toPyO_erase o, toPyOs_erase l]
theorem toPyBs_erase : ∀ l : List Branch, toPyBs dec (eraseBs l) = toPyBs dec l
  | [] => by simp [eraseBs]
  | .mk e o :: l => by simp only [eraseBs, toPyBs, toPy_erase, toPyO_erase o, toPyBs_erase l]
end

end Verif
