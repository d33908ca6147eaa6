import Verif.PpParamLemmas
/-!
# Macro texts and whole definitions
-/
namespace Verif.Pp
open Verif.Antlr Verif.Antlr.Re
open Verif.Spec.Pp (idFirst idNext blank blanks isEol isName noHead keywords StrPiece strText strOk
  ArgPiece argSpecial argText argAlt argOk balanced noComment commas BodyPiece bodyText bodyAlt bodyOk noLine Formal
  core bodyNode DefTail)

/-! ## hidden tokens -/

/-- The tokens of a macro text with the hidden ones in front of them, and the hidden ones at the end. -/
def bodyP : List Tok → Nat × Nat → Nat → List BodyPiece → List PTok × List Tok
  | hid, _, _, [] => ([], hid)
  | hid, p, i, .esc :: r =>
    bodyP (hid ++ [tk .LINE_ESCAPE .lineEscape ['\\', '\n'] p i]) (advance p ['\\', '\n']) (i + 2) r
  | hid, p, i, .plain s :: r =>
    let x := bodyP [] (advance p s) (i + s.length) r
    (⟨tk .CODE .default s p i, hid⟩ :: x.1, x.2)
  | hid, p, i, .str l :: r =>
    let x := bodyP [] (advance p (strText l)) (i + (strText l).length) r
    (⟨tk .CODE .default (strText l) p i, hid⟩ :: x.1, x.2)

theorem group_body (l : List BodyPiece) : ∀ (hid : List Tok) (p : Nat × Nat) (i : Nat) (more : List Tok),
    group hid (bodyToks p i l ++ more) = (bodyP hid p i l).1 ++ group (bodyP hid p i l).2 more := by
  induction l with
  | nil => intros; rfl
  | cons x l ih =>
    intro hid p i more
    cases x with
    | esc => rw [bodyToks, List.cons_append, group, if_neg (by simp [tk]), ih]; rfl
    | plain s => rw [bodyToks, List.cons_append, group, if_pos (by rfl), ih]; rfl
    | str s => rw [bodyToks, List.cons_append, group, if_pos (by rfl), ih]; rfl

theorem bodyP_ty (l : List BodyPiece) : ∀ (hid : List Tok) (p : Nat × Nat) (i : Nat),
    ∀ t ∈ (bodyP hid p i l).1, t.tok.ty = .CODE := by
  induction l with
  | nil => intro hid p i t ht; simp [bodyP] at ht
  | cons x l ih =>
    intro hid p i t ht
    cases x with
    | esc => exact ih _ _ _ t ht
    | plain s =>
      simp only [bodyP, List.mem_cons] at ht
      rcases ht with rfl | ht
      · rfl
      · exact ih _ _ _ t ht
    | str s =>
      simp only [bodyP, List.mem_cons] at ht
      rcases ht with rfl | ht
      · rfl
      · exact ih _ _ _ t ht

theorem bodyP_closed (l : List BodyPiece) (h : l.getLast? ≠ some .esc) : ∀ (hid : List Tok) (p : Nat × Nat) (i : Nat),
    (l = [] → hid = []) → (bodyP hid p i l).2 = [] := by
  induction l with
  | nil => intro hid p i hh; exact hh rfl
  | cons x l ih =>
    intro hid p i _
    have h' : l.getLast? ≠ some .esc := by
      cases l with
      | nil => simp
      | cons y l => rwa [List.getLast?_cons_cons] at h
    cases x with
    | esc =>
      refine ih h' _ _ _ ?_
      rintro rfl
      simp at h
    | plain s => exact ih h' _ _ _ (fun _ => rfl)
    | str s => exact ih h' _ _ _ (fun _ => rfl)

theorem dropWhile_nil {α : Type} {p : α → Bool} {l : List α} : l.dropWhile p = [] ↔ ∀ x ∈ l, p x = true := by
  induction l with
  | nil => simp
  | cons a l ih =>
    by_cases h : p a = true
    · rw [List.dropWhile_cons_of_pos h, ih]; simp [h]
    · rw [List.dropWhile_cons_of_neg h]; simp [h]

/-- All pieces are escaped line ends. -/
def allEsc (l : List BodyPiece) : Bool := l.all (· == .esc)
/-- Without the escaped line ends at the end. -/
def trimEnd (l : List BodyPiece) : List BodyPiece := (l.reverse.dropWhile (· == .esc)).reverse

theorem trimEnd_all {l : List BodyPiece} (h : allEsc l = true) : trimEnd l = [] := by
  rw [trimEnd, List.reverse_eq_nil_iff, dropWhile_nil]
  intro x hx
  rw [allEsc, List.all_eq_true] at h
  exact h x (by simpa using hx)

theorem trimEnd_cons {x : BodyPiece} {l : List BodyPiece} (h : allEsc (x :: l) = false) : trimEnd (x :: l) = x :: trimEnd l := by
  rw [trimEnd, trimEnd, List.reverse_cons, List.dropWhile_append]
  split
  · rename_i he
    have hl : allEsc l = true := by
      rw [List.isEmpty_iff, dropWhile_nil] at he
      rw [allEsc, List.all_eq_true]
      intro y hy
      exact he y (by simpa using hy)
    have hx : (x == .esc) = false := by
      rw [allEsc, List.all_cons] at h
      rw [allEsc] at hl
      simpa [hl] using h
    rw [List.dropWhile_cons_of_neg (by simp [hx]), List.isEmpty_iff.1 he]
    rfl
  · simp

theorem core_eq (l : List BodyPiece) : core l = trimEnd (l.dropWhile (· == .esc)) := rfl

/-- Text and hidden tokens of all tokens. -/
def bodyAll (l : List PTok) : Str := l.flatMap (fun p => p.hid.flatMap Tok.text ++ p.tok.text)
/-- The comments in them. -/
def bodyCom (l : List PTok) : List CommentTok := l.flatMap fun p => p.hid.flatMap fun t =>
    match t.chan, t.text with
    | .lineEscape, c :: s => [⟨true, c, s⟩]
    | .lineComment, c :: s => [⟨false, c, s⟩]
    | _, _ => []

/-- The escaped line ends. -/
def escs (l : List BodyPiece) : List CommentTok := (l.filter (· == .esc)).map fun _ => ⟨true, '\\', ['\n']⟩

/-- Hidden tokens are escaped line ends. -/
def escHid (n : Nat) (hid : List Tok) : Prop :=
  hid.length = n ∧ ∀ t ∈ hid, t.chan = .lineEscape ∧ t.text = ['\\', '\n']

def escText (n : Nat) : Str := (List.replicate n ['\\', '\n']).flatten

theorem escHid_text {n : Nat} {hid : List Tok} (h : escHid n hid) : hid.flatMap Tok.text = escText n := by
  obtain ⟨rfl, h⟩ := h
  induction hid with
  | nil => rfl
  | cons t hid ih =>
    rw [List.flatMap_cons, ih (fun u hu => h u (by simp [hu])), (h t (by simp)).2]
    simp [escText, List.replicate_succ]

theorem escHid_com {n : Nat} {hid : List Tok} (h : escHid n hid) : (hid.flatMap fun t =>
    match t.chan, t.text with
    | .lineEscape, c :: s => [(⟨true, c, s⟩ : CommentTok)]
    | .lineComment, c :: s => [⟨false, c, s⟩]
    | _, _ => []) = List.replicate n ⟨true, '\\', ['\n']⟩ := by
  obtain ⟨rfl, h⟩ := h
  induction hid with
  | nil => rfl
  | cons t hid ih =>
    rw [List.flatMap_cons, ih (fun u hu => h u (by simp [hu])), (h t (by simp)).2, (h t (by simp)).1]
    simp [List.replicate_succ]

theorem body_all (l : List BodyPiece) : ∀ (n : Nat) (hid : List Tok) (p : Nat × Nat) (i : Nat), escHid n hid →
    bodyAll (bodyP hid p i l).1 = (if allEsc l then [] else escText n ++ bodyText (trimEnd l)) ∧
    bodyCom (bodyP hid p i l).1 = (if allEsc l then [] else List.replicate n ⟨true, '\\', ['\n']⟩ ++ escs (trimEnd l)) := by
  induction l with
  | nil => intros; exact ⟨rfl, rfl⟩
  | cons x l ih =>
    intro n hid p i hh
    have code : ∀ (s : Str) (hs : x.text = s) (hx : (x == .esc) = false), bodyP hid p i (x :: l) =
        (⟨tk .CODE .default s p i, hid⟩ :: (bodyP [] (advance p s) (i + s.length) l).1, (bodyP [] (advance p s) (i + s.length) l).2) →
        bodyAll (bodyP hid p i (x :: l)).1 = (if allEsc (x :: l) then [] else escText n ++ bodyText (trimEnd (x :: l))) ∧
        bodyCom (bodyP hid p i (x :: l)).1 = (if allEsc (x :: l) then [] else List.replicate n ⟨true, '\\', ['\n']⟩ ++ escs (trimEnd (x :: l))) := by
      intro s hs hx e
      have hall : allEsc (x :: l) = false := by rw [allEsc, List.all_cons, hx]; rfl
      obtain ⟨i1, i2⟩ := ih 0 [] (advance p s) (i + s.length) ⟨rfl, by simp⟩
      rw [e]
      rw [hall]
      simp only [Bool.false_eq_true, if_false]
      rw [trimEnd_cons hall, bodyAll, bodyCom, List.flatMap_cons, List.flatMap_cons, escHid_text hh, escHid_com hh]
      rw [bodyAll] at i1
      rw [bodyCom] at i2
      rw [i1, i2]
      have hb : bodyText (x :: trimEnd l) = s ++ bodyText (trimEnd l) := by rw [bodyText, List.flatMap_cons, hs]; rfl
      have hc : escs (x :: trimEnd l) = escs (trimEnd l) := by rw [escs, List.filter_cons_of_neg (by simp [hx])]; rfl
      rw [hb, hc]
      constructor
      · by_cases ha : allEsc l = true
        · rw [if_pos ha, trimEnd_all ha]
          simp [tk, bodyText]
        · rw [if_neg ha]
          simp [tk, escText]
      · by_cases ha : allEsc l = true
        · rw [if_pos ha, trimEnd_all ha]
          rfl
        · rw [if_neg ha]
          simp
    cases x with
    | plain s => exact code s rfl rfl rfl
    | str s => exact code (strText s) rfl rfl rfl
    | esc =>
      obtain ⟨i1, i2⟩ := ih (n + 1) (hid ++ [tk .LINE_ESCAPE .lineEscape ['\\', '\n'] p i]) (advance p ['\\', '\n']) (i + 2) (by
        obtain ⟨h1, h2⟩ := hh
        refine ⟨by simp [h1], ?_⟩
        intro t ht
        rw [List.mem_append, List.mem_singleton] at ht
        rcases ht with ht | rfl
        · exact h2 t ht
        · exact ⟨rfl, rfl⟩)
      have ha : allEsc (.esc :: l) = allEsc l := by simp [allEsc]
      rw [bodyP, i1, i2, ha]
      by_cases hb : allEsc l = true
      · simp [hb]
      · rw [if_neg hb, if_neg hb, if_neg hb, if_neg hb, trimEnd_cons (by rw [ha]; simpa using hb)]
        constructor
        · simp [escText, List.replicate_succ', bodyText, BodyPiece.text]
        · simp [escs, List.replicate_succ']

theorem body_raw (l : List BodyPiece) : ∀ (hid : List Tok) (p : Nat × Nat) (i : Nat),
    rawText (bodyP hid p i l).1 = bodyText (core l) ∧ commentToks (bodyP hid p i l).1 = escs (core l) ∧
      ((bodyP hid p i l).1 = [] ↔ core l = []) := by
  induction l with
  | nil => intros; exact ⟨rfl, rfl, by simp [bodyP, core]⟩
  | cons x l ih =>
    intro hid p i
    have code : ∀ (s : Str) (hs : x.text = s) (hx : (x == .esc) = false), bodyP hid p i (x :: l) =
        (⟨tk .CODE .default s p i, hid⟩ :: (bodyP [] (advance p s) (i + s.length) l).1, (bodyP [] (advance p s) (i + s.length) l).2) →
        rawText (bodyP hid p i (x :: l)).1 = bodyText (core (x :: l)) ∧ commentToks (bodyP hid p i (x :: l)).1 = escs (core (x :: l)) ∧
      ((bodyP hid p i (x :: l)).1 = [] ↔ core (x :: l) = []) := by
      intro s hs hx e
      have hall : allEsc (x :: l) = false := by rw [allEsc, List.all_cons, hx]; rfl
      obtain ⟨i1, i2⟩ := body_all l 0 [] (advance p s) (i + s.length) ⟨rfl, by simp⟩
      have hcore : core (x :: l) = x :: trimEnd l := by
        rw [core_eq, List.dropWhile_cons_of_neg (by simp [hx]), trimEnd_cons hall]
      have hb : bodyText (x :: trimEnd l) = s ++ bodyText (trimEnd l) := by rw [bodyText, List.flatMap_cons, hs]; rfl
      have hc : escs (x :: trimEnd l) = escs (trimEnd l) := by rw [escs, List.filter_cons_of_neg (by simp [hx])]; rfl
      rw [e, hcore, hb, hc]
      refine ⟨?_, ?_, by simp⟩
      · rw [rawText]
        show s ++ bodyAll _ = _
        rw [i1]
        by_cases ha : allEsc l = true
        · rw [if_pos ha, trimEnd_all ha]; rfl
        · rw [if_neg ha]; simp [escText]
      · rw [commentToks]
        show bodyCom (bodyP [] (advance p s) (i + s.length) l).1 = _
        rw [i2]
        by_cases ha : allEsc l = true
        · rw [if_pos ha, trimEnd_all ha]; rfl
        · rw [if_neg ha]; simp
    cases x with
    | plain s => exact code s rfl rfl rfl
    | str s => exact code (strText s) rfl rfl rfl
    | esc =>
      have : core (.esc :: l) = core l := by rw [core_eq, core_eq, List.dropWhile_cons_of_pos (by decide)]
      rw [bodyP, this]
      exact ih _ _ _

/-- The macro text in the tree. -/
theorem body_node (l : List BodyPiece) (hid : List Tok) (p : Nat × Nat) (i : Nat) :
    (if (bodyP hid p i l).1.isEmpty then none else some (rawText (bodyP hid p i l).1, commentToks (bodyP hid p i l).1)) = bodyNode l := by
  obtain ⟨h1, h2, h3⟩ := body_raw l hid p i
  rw [bodyNode, h1, h2]
  by_cases hc : core l = []
  · rw [if_pos hc, if_pos (by rw [List.isEmpty_iff]; exact h3.2 hc)]
  · rw [if_neg hc, if_neg (by rw [List.isEmpty_iff]; exact fun h => hc (h3.1 h))]
    rfl

/-! ## blanks which belong to the macro text -/

/-- Blanks in front of a macro text. -/
def mergeWs (ws : Str) (b : List BodyPiece) : List BodyPiece :=
  if ws = [] then b else match b with
    | .plain s :: r => .plain (ws ++ s) :: r
    | b => .plain ws :: b

theorem merge_text (ws : Str) (b : List BodyPiece) : bodyText (mergeWs ws b) = ws ++ bodyText b := by
  unfold mergeWs
  split
  · rename_i h; simp [h]
  · split <;> simp [bodyText, BodyPiece.text]

theorem merge_node (ws : Str) (b : List BodyPiece) :
    bodyNode (mergeWs ws b) = if ws = [] then bodyNode b else bodyNode (.plain ws :: b) := by
  unfold mergeWs
  split
  · rfl
  · rename_i h
    split
    · rename_i s r
      have hp : ∀ t (l : List BodyPiece), core (.plain t :: l) = .plain t :: trimEnd l := by
        intro t l
        rw [core_eq, List.dropWhile_cons_of_neg (by simp), trimEnd_cons (by simp [allEsc])]
      rw [bodyNode, bodyNode, hp, hp, trimEnd_cons (by simp [allEsc])]
      simp [bodyText, BodyPiece.text]
    · rfl

theorem noLine_append_ws {ws s : Str} (hw : ws.all blank = true) (h : noLine s = true) : noLine (ws ++ s) = true := by
  induction ws with
  | nil => exact h
  | cons c ws ih =>
    simp only [List.all_cons, Bool.and_eq_true] at hw
    rw [List.cons_append]
    unfold noLine
    split
    · rename_i heq
      injection heq with e1 e2
      subst e1
      exact absurd hw.1 (by decide)
    · rename_i heq
      injection heq with e1 e2
      subst e2
      exact ih hw.2
    · rfl

theorem blanks_plain_ok {ws s : Str} (hne : ws ≠ []) (hw : ws.all blank = true)
    (hs : s = [] ∨ (BodyPiece.plain s).ok = true) : (BodyPiece.plain (ws ++ s)).ok = true := by
  have hwc : ∀ c ∈ ws, c = ' ' ∨ c = '\t' := by
    intro c hc
    have := List.all_eq_true.1 hw c hc
    simpa [blank] using this
  have hhead : (ws ++ s).head? ≠ some '\r' := by
    cases ws with
    | nil => exact absurd rfl hne
    | cons c ws =>
      rcases hwc c (by simp) with rfl | rfl <;> simp
  have hlastw : ws.getLast? ≠ some '`' := by
    intro h
    rcases hwc _ (List.mem_of_getLast? h) with h | h <;> cases h
  simp only [BodyPiece.ok, Bool.and_eq_true, Bool.not_eq_true', List.isEmpty_eq_false_iff, List.all_eq_true, bne_iff_ne]
  refine ⟨⟨⟨⟨by simp [hne], ?_⟩, ?_⟩, ?_⟩, hhead⟩
  · intro c hc
    rw [List.mem_append] at hc
    rcases hc with hc | hc
    · rcases hwc c hc with rfl | rfl <;> decide
    · rcases hs with rfl | hs
      · simp at hc
      · simp only [BodyPiece.ok, Bool.and_eq_true, Bool.not_eq_true', List.isEmpty_eq_false_iff, List.all_eq_true, bne_iff_ne] at hs
        exact hs.1.1.1.2 c hc
  · refine noLine_append_ws hw ?_
    rcases hs with rfl | hs
    · rfl
    · simp only [BodyPiece.ok, Bool.and_eq_true] at hs
      exact hs.1.1.2
  · rcases hs with rfl | hs
    · simpa using hlastw
    · simp only [BodyPiece.ok, Bool.and_eq_true, Bool.not_eq_true', List.isEmpty_eq_false_iff, bne_iff_ne] at hs
      rw [List.getLast?_append]
      cases hl : s.getLast? with
      | none => rw [List.getLast?_eq_none_iff] at hl; exact absurd hl hs.1.1.1.1
      | some c =>
        have := hs.1.2
        rw [hl] at this
        simpa using this

theorem merge_ok {ws : Str} {b : List BodyPiece} (hw : ws.all blank = true) (hb : bodyOk b = true) : bodyOk (mergeWs ws b) = true := by
  unfold mergeWs
  split
  · exact hb
  · rename_i hne
    simp only [bodyOk, Bool.and_eq_true] at hb
    split
    · rename_i s r
      simp only [List.all_cons, Bool.and_eq_true] at hb
      simp only [bodyOk, List.all_cons, Bool.and_eq_true]
      refine ⟨⟨blanks_plain_ok hne hw (.inr hb.1.1), hb.1.2⟩, ?_⟩
      have := hb.2
      cases r with
      | nil => rfl
      | cons y r => cases y <;> simpa [bodyAlt] using this
    · rename_i hn
      simp only [bodyOk, List.all_cons, Bool.and_eq_true]
      refine ⟨⟨?_, hb.1⟩, ?_⟩
      · have := blanks_plain_ok (s := []) hne hw (.inl rfl)
        rwa [List.append_nil] at this
      · cases b with
        | nil => rfl
        | cons y b =>
          cases y with
          | plain s => exact absurd rfl (hn s b)
          | str l => simpa [bodyAlt] using hb.2
          | esc => simpa [bodyAlt] using hb.2

theorem merge_ends {ws : Str} {b : List BodyPiece} (h : ws = [] ∨ b ≠ []) : endsPlain (mergeWs ws b) = endsPlain b := by
  unfold mergeWs
  split
  · rfl
  · rename_i hne
    split
    · rename_i s r
      cases r with
      | nil => rfl
      | cons y r => rw [endsPlain_cons, endsPlain_cons]
    · cases b with
      | nil => simp [hne] at h
      | cons y b => rw [endsPlain_cons]

theorem merge_closed {ws : Str} {b : List BodyPiece} (h : b.getLast? ≠ some .esc) : (mergeWs ws b).getLast? ≠ some .esc := by
  unfold mergeWs
  split
  · exact h
  · split
    · rename_i s r
      cases r with
      | nil => simp
      | cons y r => rw [List.getLast?_cons_cons] at h ⊢; exact h
    · cases b with
      | nil => simp
      | cons y b => rw [List.getLast?_cons_cons]; exact h

end Verif.Pp
