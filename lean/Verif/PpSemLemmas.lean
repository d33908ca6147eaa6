import Verif.Spec.PpSem
import Verif.PpNestLemmas
import Verif.PpRead
import Verif.ReachLemmas
import Verif.Props.MacroDef
import Verif.Props.StrUtils
import Verif.PreprocLemmas
/-!
# The preprocessor computes the meaning of a source
-/
namespace Verif.Pp
open Verif.Spec Verif.Spec.Pp

/-! ## spaced texts -/

theorem _root_.Verif.Spec.Pp.Spaced.lines (k : Nat) {c : List Str} {t : Str} (h : Spaced c t) : Spaced c (List.replicate k '\n' ++ t) := by
  cases h with
  | nil j => rw [← List.replicate_add]; exact .nil _
  | cons j h => rw [← List.append_assoc, ← List.replicate_add]; exact .cons _ h

theorem _root_.Verif.Spec.Pp.Spaced.append {c c' : List Str} {t t' : Str} (h : Spaced c t) (h' : Spaced c' t') : Spaced (c ++ c') (t ++ t') := by
  induction h with
  | nil k => exact h'.lines k
  | cons k h ih =>
    rw [List.append_assoc, List.append_assoc]
    exact .cons k ih

theorem _root_.Verif.Spec.Pp.Spaced.single (k : Nat) (x : Str) : Spaced [x] (List.replicate k '\n' ++ x) := by
  have := Spaced.cons k (x := x) (Spaced.nil 0)
  simpa using this

theorem _root_.Verif.Spec.Pp.Spaced.not_mem {c : List Str} {t : Str} (h : Spaced c t) {a : Char} (ha : a ≠ '\n') (hc : ∀ x ∈ c, a ∉ x) : a ∉ t := by
  induction h with
  | nil k => simp [List.mem_replicate, ha]
  | cons k h ih =>
    have h1 := hc _ (List.mem_cons_self ..)
    have h2 := ih fun x hx => hc x (List.mem_cons_of_mem _ hx)
    simp [List.mem_replicate, ha, h1, h2]

/-! ## the output buffer -/

theorem endls_text (k : Nat) (o : OutBuf) : (OutBuf.endls k o).text = o.text ++ List.replicate k '\n' ∧ (OutBuf.endls k o).map = o.map := by
  induction k generalizing o with
  | zero => simp [OutBuf.endls]
  | succ k ih =>
    obtain ⟨h1, h2⟩ := ih o.endl
    rw [OutBuf.endls, h1, h2]
    simp [OutBuf.endl, List.replicate_succ]

theorem setLine_text (o : OutBuf) (n : W) (hm : o.map ≠ []) :
    ∃ o' k, o.setLine n = .ok o' ∧ o'.text = o.text ++ List.replicate k '\n' ∧ o'.map ≠ [] := by
  unfold OutBuf.setLine
  simp only
  split
  · obtain ⟨h1, h2⟩ := endls_text (n - (o.outputLine + o.offset + o.begin_)).toNat o
    exact ⟨_, _, rfl, h1, by rw [h2]; exact hm⟩
  · split
    · rename_i h; exact absurd (by simpa using h) hm
    · exact ⟨_, 0, rfl, by simp, by simp⟩

theorem setFileLine_new (b : W) (f : Str) (n : W) :
    ∃ o', (OutBuf.new b).setFileLine f n = .ok o' ∧ o'.text = [] ∧ o'.map ≠ [] := ⟨_, rfl, rfl, by simp [OutBuf.new]⟩

/-! ## macros -/

/-- An entry of the macro database is this macro. -/
inductive Rep : Entry → DbItem → Prop
  | user {ps body p name m} : MacroDef.new name ps.isSome (ps.getD []) body = .ok m → FormalsOk (ps.getD []) →
      endsInString false none body = false → Rep (.user ps body p) ⟨.user m, p⟩
  | line {p} : Rep (.predefined p) ⟨.line, p⟩
  | file {p} : Rep (.predefined p) ⟨.file, p⟩

theorem Rep.fixed {e : Entry} {it : DbItem} (h : Rep e it) : e.fixed = it.persistent := by cases h <;> rfl

/-- The macro database holds these macros. -/
def Abs (db : MacroDB) (mac : Str → Option Entry) : Prop := db.Uniq ∧ ∀ n, Option.Rel Rep (mac n) (db.find n)

theorem Abs.isSome {db : MacroDB} {mac : Str → Option Entry} (h : Abs db mac) (n : Str) : (db.find n).isSome = (mac n).isSome := by
  have := h.2 n
  cases hm : mac n <;> cases hd : db.find n <;> rw [hm, hd] at this <;> first | rfl | cases this

theorem Abs.found {db : MacroDB} {mac : Str → Option Entry} (h : Abs db mac) {n : Str} {e : Entry} (he : mac n = some e) :
    ∃ it, db.find n = some it ∧ Rep e it := by
  have := h.2 n
  rw [he] at this
  cases hd : db.find n <;> rw [hd] at this
  · cases this
  · cases this; exact ⟨_, rfl, by assumption⟩

theorem Abs.notFound {db : MacroDB} {mac : Str → Option Entry} (h : Abs db mac) {n : Str} (he : mac n = none) : db.find n = none := by
  have := h.isSome n
  rw [he] at this
  simpa using this

theorem find_append_single (db : MacroDB) (k n : Str) (v : DbItem) (hk : db.find k = none) :
    MacroDB.find (db ++ [(k, v)]) n = if n = k then some v else db.find n := by
  unfold MacroDB.find at hk ⊢
  rw [List.find?_append]
  by_cases h : n = k
  · subst h
    have : List.find? (fun p => p.1 == n) db = none := by simpa using hk
    simp [this]
  · have : (k == n) = false := by simpa using fun e => h e.symm
    simp [h, this]

theorem Abs.insert {db : MacroDB} {w : World} (h : Abs db w.macros) {name : Str} {e : Entry} {it : DbItem} (hn : w.macros name = none)
    (hr : Rep e it) : Abs (db.insert name it) (w.set name (some e)).macros := by
  have hd := h.notFound hn
  have hi : db.insert name it = db ++ [(name, it)] := by simp [MacroDB.insert, hd]
  refine ⟨?_, fun n => ?_⟩
  · rw [hi]
    unfold MacroDB.Uniq
    rw [List.map_append, List.nodup_append]
    refine ⟨h.1, by simp, ?_⟩
    rintro a ha b hb rfl
    simp at hb
    subst hb
    obtain ⟨x, hx, he⟩ := List.mem_map.1 ha
    unfold MacroDB.find at hd
    have : List.find? (fun p => p.1 == x.1) db = none := by simpa [he] using hd
    rw [List.find?_eq_none] at this
    exact this x hx (by simp)
  · rw [hi, find_append_single _ _ _ _ hd]
    unfold World.set
    simp only
    split
    · exact .some hr
    · exact h.2 n

theorem find_filter (db : MacroDB) (hu : db.Uniq) (q : Str × DbItem → Bool) (n : Str) :
    MacroDB.find (List.filter q db) n = (db.find n).filter (fun v => q (n, v)) := by
  unfold MacroDB.find
  unfold MacroDB.Uniq at hu
  induction db with
  | nil => rfl
  | cons x db ih =>
    rw [List.map_cons, List.nodup_cons] at hu
    have ih := ih hu.2
    by_cases hx : x.1 = n
    · have hnone : List.find? (fun p => p.1 == n) db = none := by
        rw [List.find?_eq_none]
        intro y hy hc
        exact hu.1 (List.mem_map.2 ⟨y, hy, by simp at hc; rw [hc, hx]⟩)
      have hx' : (x.1 == n) = true := by simpa using hx
      rw [List.find?_cons_of_pos (p := fun p : Str × DbItem => p.1 == n) hx']
      have hxe : (n, x.2) = x := by rw [← hx]
      by_cases hq : q x = true
      · rw [List.filter_cons_of_pos hq, List.find?_cons_of_pos (p := fun p : Str × DbItem => p.1 == n) hx']
        simp [Option.filter, hxe, hq]
      · rw [List.filter_cons_of_neg hq, ih, hnone]
        simp [Option.filter, hxe, hq]
    · have hx' : ¬ (x.1 == n) = true := by simpa using hx
      rw [List.find?_cons_of_neg (p := fun p : Str × DbItem => p.1 == n) hx', ← ih]
      by_cases hq : q x = true
      · rw [List.filter_cons_of_pos hq, List.find?_cons_of_neg (p := fun p : Str × DbItem => p.1 == n) hx']
      · rw [List.filter_cons_of_neg hq]

theorem Abs.filter {db : MacroDB} {mac : Str → Option Entry} (h : Abs db mac) (q : Str × DbItem → Bool) (f : Str → Entry → Bool)
    (hf : ∀ n e it, Rep e it → f n e = q (n, it)) : Abs (List.filter q db) (fun n => (mac n).filter (f n)) := by
  refine ⟨(List.Nodup.sublist (List.Sublist.map _ (List.filter_sublist)) h.1 : MacroDB.Uniq _), fun n => ?_⟩
  rw [find_filter db h.1]
  have := h.2 n
  revert this
  beta_reduce
  generalize mac n = m
  generalize db.find n = d
  intro this
  cases this with
  | none => exact .none
  | @some e it hr =>
    have he := hf n e it hr
    cases hq : q (n, it) <;> rw [hq] at he
    · have h1 : (Option.some e).filter (f n) = none := by simp [Option.filter, he]
      have h2 : (Option.some it).filter (fun v => q (n, v)) = none := by simp [Option.filter, hq]
      rw [h1, h2]; exact .none
    · have h1 : (Option.some e).filter (f n) = some e := by simp [Option.filter, he]
      have h2 : (Option.some it).filter (fun v => q (n, v)) = some it := by simp [Option.filter, hq]
      rw [h1, h2]; exact .some hr

theorem Abs.erase {db : MacroDB} {w : World} (h : Abs db w.macros) (name : Str) : Abs (db.erase name) (w.set name none).macros := by
  have := h.filter (fun p => p.1 != name) (fun n _ => n != name) (fun _ _ _ _ => rfl)
  unfold MacroDB.erase
  convert this using 1
  funext n
  unfold World.set
  simp only
  split
  · rename_i hn
    cases w.macros n <;> simp [Option.filter, hn]
  · rename_i hn
    cases w.macros n <;> simp [Option.filter, hn]

/-! ## texts of macros -/

theorem core_mem {l : List BodyPiece} {x : BodyPiece} (hx : x ∈ core l) : x ∈ l := by
  obtain ⟨a, b, -, -, h⟩ := core_split l
  rw [h]; simp [hx]

theorem bodyNode_exact {l : List BodyPiece} (hl : ∀ x ∈ l, (match x with
      | .plain s => '\\' ∉ s
      | .str p => p.all StrPiece.ok = true
      | .esc => True)) (hn : l.all pieceNoNl = true) (line col : Nat) (name : Str) (ps : Option (List Param)) :
    defineBody ⟨line, col, name, ps, bodyNode l⟩ = .ok (bodyOf l) := by
  unfold bodyNode
  split
  · rename_i h0
    simp [bodyOf, h0, logical, defineBody]
  · unfold defineBody
    simp only
    rw [removeComment_body (fun x hx => hl x (core_mem hx)) (by
      rw [List.all_eq_true] at hn ⊢
      exact fun x hx => hn x (core_mem hx)), logical_with]
    simp only [bind, Except.bind, pure, Except.pure]
    rw [rtrim_eq, mem_wsChars]
    rfl

theorem define_text {lang : Nat} {tail : DefTail} (h : tail.ok lang = true) (hs : tail.oneLineStrings = true) (l c : Nat) (name : Str) :
    defineBody ⟨l, c, name, tail.params, tail.node⟩ = .ok tail.macroText := by
  cases tail with
  | none => rfl
  | body ws b =>
    simp only [DefTail.ok, Bool.and_eq_true] at h
    exact bodyNode_exact (bodyOk_mem h.1.2) (noNl_all hs) _ _ _ _
  | args fs ws b =>
    simp only [DefTail.ok, Bool.and_eq_true] at h
    simp only [DefTail.node, DefTail.macroText]
    split
    · exact bodyNode_exact (bodyOk_mem h.1.2) (noNl_all hs) _ _ _ _
    · refine bodyNode_exact ?_ ?_ _ _ _ _
      · intro x hx
        rcases List.mem_cons.1 hx with rfl | hx
        · intro hm
          have := List.all_eq_true.1 h.1.1.2 _ hm
          simp [blank] at this
        · exact bodyOk_mem h.1.2 x hx
      · rw [List.all_cons, noNl_all hs]; rfl

theorem isName_ident {s : Str} (h : isName s = true) : IsIdent s := by
  cases s with
  | nil => simp [isName] at h
  | cons c s =>
    simp only [isName, Bool.and_eq_true, List.all_eq_true] at h
    refine ⟨by simp, fun d hd => ?_⟩
    rcases List.mem_cons.1 hd with rfl | hd
    · have := h.1
      simp only [idFirst, Bool.or_eq_true] at this
      simp only [isIdChar, Char.isAlphanum, Bool.or_eq_true]
      tauto
    · have := h.2 d hd
      simp only [idNext, Bool.or_eq_true] at this
      simp only [isIdChar, Bool.or_eq_true]
      tauto

theorem params_formalsOk {lang : Nat} {tail : DefTail} (h : tail.ok lang = true)
    (hn : ((tail.params.getD []).map Param.name).Nodup) : FormalsOk (tail.params.getD []) := by
  refine ⟨?_, hn⟩
  cases tail with
  | none => simp [DefTail.params]
  | body => simp [DefTail.params]
  | args fs ws b =>
    cases fs with
    | nil => simp [DefTail.params]
    | cons f fs =>
      intro p hp
      simp only [DefTail.params, Option.getD_some, List.mem_map] at hp
      obtain ⟨g, hg, rfl⟩ := hp
      simp only [DefTail.ok, Bool.and_eq_true, List.all_eq_true] at h
      have := h.1.1.1 g hg
      simp only [Formal.ok, Bool.and_eq_true] at this
      exact isName_ident this.1.1.2

/-- `params = some []` does not occur, but would do no harm. -/
theorem new_ok (name : Str) (ps : Option (List Param)) (body : Str) (hf : FormalsOk (ps.getD []))
    (hb : endsInString false none body = false) : ∃ m, MacroDef.new name ps.isSome (ps.getD []) body = .ok m := by
  obtain ⟨fr, hfr, -⟩ := (parseBody_spec name (ps.getD []) body hf).2 hb
  exact ⟨_, by simp [MacroDef.new, hfr, bind, Except.bind, pure, Except.pure]; rfl⟩

/-! ## calls -/

theorem trim_strip (s : Str) : trim s wsChars = strip s := by
  unfold trim strip
  rw [ltrim_eq, rtrim_eq, mem_wsChars]

theorem strip_nil : strip [] = [] := rfl

theorem args_actuals (args : List (List ArgPiece)) : parseMacroArgs (argToks args) true false [] = actuals args := by
  have key : ∀ (r : List (List ArgPiece)) (a : List ArgPiece) (acc : List Str),
      parseMacroArgs (argToks (a :: r)) true true acc = acc ++ (a :: r).map actual := by
    intro r
    induction r with
    | nil =>
      intro a acc
      rw [argToks]
      split
      · rename_i h; simp [parseMacroArgs, actual, h, strip_nil]
      · simp [parseMacroArgs, actual, trim_strip]
    | cons b r ih =>
      intro a acc
      rw [argToks]
      · split
        · rename_i h; simp [parseMacroArgs, actual, h, strip_nil, ih]
        · simp [parseMacroArgs, actual, trim_strip, ih]
      · simp
  cases args with
  | nil => rfl
  | cons a r =>
    cases r with
    | nil =>
      rw [argToks]
      unfold actuals
      split
      · rename_i h; simp [parseMacroArgs, h]
      · rename_i h; simp [parseMacroArgs, h, actual, trim_strip]
    | cons b r =>
      rw [argToks]
      · have : actuals (a :: b :: r) = (a :: b :: r).map actual := by
          unfold actuals
          exact if_neg (by simp)
        rw [this]
        split
        · rename_i h; simp [parseMacroArgs, actual, h, strip_nil, key]
        · simp [parseMacroArgs, actual, trim_strip, key]
      · simp

theorem paste_eq {lang : Nat} {r r' : Str} (h : Pasted lang r r') : paste lang r = .ok r' := by
  unfold Pasted at h
  unfold paste
  split
  · rename_i hl
    rw [if_pos hl] at h
    obtain ⟨q, h1, h2⟩ := h
    rw [(C24_replace_substring_exact _ _ _ _ (by simp)).2 h1]
    exact (C24_replace_substring_exact _ _ _ _ (by simp)).2 h2
  · rename_i hl
    rw [if_neg hl] at h
    rw [h]

theorem unescape_eq {lang : Nat} {t : Str} (h : '`' ∉ t) : Verif.unescape lang t = .ok t := by
  unfold Verif.unescape
  split
  · exact C22_no_marker t (fun hc => h (hc.subset (by simp)))
  · rfl

end Verif.Pp
