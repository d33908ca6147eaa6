import Verif.PpTokLemmas
/-!
# Single tokens of the lexer
-/
namespace Verif.Pp
open Verif.Antlr Verif.Antlr.Re
open Verif.Spec.Pp (idFirst idNext blank isName noHead StrPiece strText strOk CodePiece noEnd special white isEol)

/-- The rule at an index wins if the earlier ones match less and the later ones do not match more. -/
theorem pick_idx {α : Type} {re : α → Re} {l : List α} {s : List Sym} {i : Nat} {r : α} {n : Nat} (hi : l[i]? = some r)
    (hr : (re r).longest s = some n)
    (h1 : ∀ j q k, j < i → l[j]? = some q → (re q).longest s = some k → k < n)
    (h2 : ∀ j q k, i < j → l[j]? = some q → (re q).longest s = some k → k ≤ n) : pick re l s = some (r, n) := by
  induction l generalizing i with
  | nil => simp at hi
  | cons a l ih =>
    cases i with
    | zero =>
      simp at hi
      subst hi
      rw [pick, hr]
      cases hp : pick re l s with
      | none => rfl
      | some x =>
        obtain ⟨q, k⟩ := x
        obtain ⟨hq, hk⟩ := pick_some hp
        obtain ⟨j, hj⟩ := List.mem_iff_getElem?.1 hq
        have := h2 (j + 1) q k (by omega) (by simpa using hj) hk
        simp only
        rw [if_neg (by omega)]
    | succ i =>
      have ih' := ih (i := i) (by simpa using hi) (fun j q k hj hq hk => h1 (j + 1) q k (by omega) (by simpa using hq) hk)
        (fun j q k hj hq hk => h2 (j + 1) q k (by omega) (by simpa using hq) hk)
      rw [pick, ih']
      cases ha : (re a).longest s with
      | none => rfl
      | some k =>
        have := h1 0 a k (by omega) (by simp) ha
        simp only
        rw [if_pos this]

/-- One token: the rule `r` takes the text `t`. -/
theorem lexR_tok {st : St} {pos : Nat × Nat} {idx : Nat} {t rest : Str} {r : Rule} {n : Nat} (ht : t ≠ [])
    (hp : pick Rule.re (rules st.mode) (syms (t ++ rest)) = some (r, n))
    (hn : n = t.length ∨ rest = [] ∧ t.length ≤ n) (hf : (r.exec st t).fail = false) :
    lexR st pos idx (t ++ rest) = (lexR (r.exec st t).st (advance pos t) (idx + t.length) rest).map
      (fun ts => emit (r.exec st t) pos idx t.length ++ ts) := by
  have htake : (t ++ rest).take n = t := by
    rcases hn with rfl | ⟨rfl, h⟩
    · simp
    · simp [List.take_of_length_le h]
  have hdrop : (t ++ rest).drop n = rest := by
    rcases hn with rfl | ⟨rfl, h⟩
    · simp
    · simp [List.drop_eq_nil_of_le h]
  rw [lexR_step (by simp [ht]) hp, htake, hdrop, hf]
  rfl

/-- `pick` where all rules but one do not match. -/
theorem pick_only {α : Type} {re : α → Re} {l : List α} {s : List Sym} {i : Nat} {r : α} {n : Nat} (hi : l[i]? = some r)
    (hr : (re r).longest s = some n) (h : ∀ j q, j ≠ i → l[j]? = some q → (re q).longest s = none) :
    pick re l s = some (r, n) :=
  pick_idx hi hr (fun j q k hj hq hk => by rw [h j q (by omega) hq] at hk; simp at hk)
    (fun j q k hj hq hk => by rw [h j q (by omega) hq] at hk; simp at hk)

/-! ## the default mode -/

theorem default_idx {P : Nat → Rule → Prop} (h0 : P 0 ⟨.STR, STRr, []⟩) (h1 : P 1 ⟨.LINE_COMMENT, LINE_COMMENTr, []⟩)
    (h2 : P 2 ⟨.COMMENT, COMMENTr, []⟩) (h3 : P 3 ⟨.CODE, plus codeStep, []⟩)
    (h4 : P 4 ⟨.CODE, seq codeStep (seq (star codeStep) (lit ['/', '`'])), [fun o => setText o.text.dropLast o, push .directive]⟩)
    (h5 : P 5 ⟨.EOF, set ['`'], [push .directive, skip]⟩) : ∀ j q, defaultRules[j]? = some q → P j q := by
  intro j q hq
  match j, hq with
  | 0, hq => cases hq; exact h0
  | 1, hq => cases hq; exact h1
  | 2, hq => cases hq; exact h2
  | 3, hq => cases hq; exact h3
  | 4, hq => cases hq; exact h4
  | 5, hq => cases hq; exact h5
  | j + 6, hq => simp [defaultRules] at hq

theorem code_no_of_end {t : Str} (h : CodeEnd t) : longest (plus codeStep) (syms t) = none ∧
    longest (seq codeStep (seq (star codeStep) (lit ['/', '`']))) (syms t) = none :=
  ⟨seq_code_end (by simp) h, seq_code_end (by simp) h⟩

theorem NoHead_cons {p : Char → Bool} {c : Char} {s : Str} : NoHead p (c :: s) ↔ p c = false := by simp [NoHead]
theorem NoHead_nil {p : Char → Bool} : NoHead p [] := by simp [NoHead]
theorem NoHead_append {p : Char → Bool} {s t : Str} (h : s ≠ []) : NoHead p (s ++ t) ↔ NoHead p s := by
  cases s with
  | nil => exact absurd rfl h
  | cons c s => simp [NoHead_cons]

theorem pick_str {l : List StrPiece} (hl : strOk l = true) (t : Str) :
    pick Rule.re defaultRules (syms (strText l ++ t)) = some (⟨.STR, STRr, []⟩, (strText l).length) := by
  have he : CodeEnd (strText l ++ t) := .inr (.inl ⟨_, rfl⟩)
  refine pick_only (i := 0) rfl (longest_str hl t) fun j q hj hq => ?_
  refine default_idx (P := fun j q => j ≠ 0 → longest q.re _ = none) ?_ ?_ ?_ ?_ ?_ ?_ j q hq hj
  · intro h; exact absurd rfl h
  · intro _; exact line_no (by simp [strText])
  · intro _; exact comment_no (by simp [strText])
  · intro _; exact (code_no_of_end he).1
  · intro _; exact (code_no_of_end he).2
  · intro _; exact set1_no (by simp [strText, NoHead])

theorem pick_line {s eol rest : Str} (hs : s.all (fun c => c != '\r' && c != '\n') = true)
    (he : Spec.Pp.eolOk eol rest = true) :
    ∃ n, pick Rule.re defaultRules (syms ((c! "//" ++ s ++ eol) ++ rest)) = some (⟨.LINE_COMMENT, LINE_COMMENTr, []⟩, n) ∧
      (n = (c! "//" ++ s ++ eol).length ∨ rest = [] ∧ (c! "//" ++ s ++ eol).length ≤ n) := by
  have hc : CodeEnd ((c! "//" ++ s ++ eol) ++ rest) := .inr (.inr (.inl ⟨_, rfl⟩))
  obtain ⟨n, h1, h2⟩ := longest_line hs he
  refine ⟨n, pick_only (i := 1) rfl h1 fun j q hj hq => ?_, h2⟩
  refine default_idx (P := fun j q => j ≠ 1 → longest q.re _ = none) ?_ ?_ ?_ ?_ ?_ ?_ j q hq hj
  · intro _; exact str_no (by simp [NoHead])
  · intro h; exact absurd rfl h
  · intro _; exact comment_no (by simp)
  · intro _; exact (code_no_of_end hc).1
  · intro _; exact (code_no_of_end hc).2
  · intro _; exact set1_no (by simp [NoHead])

theorem pick_comment {s : Str} (hs : noEnd s = true) (rest : Str) :
    pick Rule.re defaultRules (syms ((c! "/*" ++ s ++ c! "*/") ++ rest)) =
      some (⟨.COMMENT, COMMENTr, []⟩, (c! "/*" ++ s ++ c! "*/").length) := by
  have hc : CodeEnd ((c! "/*" ++ s ++ c! "*/") ++ rest) := .inr (.inr (.inr (.inl ⟨_, rfl⟩)))
  refine pick_only (i := 2) rfl (longest_comment hs rest) fun j q hj hq => ?_
  refine default_idx (P := fun j q => j ≠ 2 → longest q.re _ = none) ?_ ?_ ?_ ?_ ?_ ?_ j q hq hj
  · intro _; exact str_no (by simp [NoHead])
  · intro _; exact line_no (by simp)
  · intro h; exact absurd rfl h
  · intro _; exact (code_no_of_end hc).1
  · intro _; exact (code_no_of_end hc).2
  · intro _; exact set1_no (by simp [NoHead])

theorem pick_bt' {c : Char} (hc : btEnd c = true) (rest : Str) :
    pick Rule.re defaultRules (syms (['`'] ++ c :: rest)) = some (⟨.EOF, set ['`'], [push .directive, skip]⟩, 1) := by
  have he : CodeEnd (['`'] ++ c :: rest) := .inr (.inr (.inr (.inr ⟨c, rest, rfl, hc⟩)))
  refine pick_only (i := 5) rfl (longest_set1 _) fun j q hj hq => ?_
  refine default_idx (P := fun j q => j ≠ 5 → longest q.re _ = none) ?_ ?_ ?_ ?_ ?_ ?_ j q hq hj
  · intro _; exact str_no (by simp [NoHead])
  · intro _; exact line_no (by simp)
  · intro _; exact comment_no (by simp)
  · intro _; exact (code_no_of_end he).1
  · intro _; exact (code_no_of_end he).2
  · intro h; exact absurd rfl h

theorem pick_bt {c : Char} (hc : idFirst c = true) (rest : Str) :
    pick Rule.re defaultRules (syms (['`'] ++ c :: rest)) = some (⟨.EOF, set ['`'], [push .directive, skip]⟩, 1) :=
  pick_bt' (btEnd_first hc) rest

theorem codePiece_ne {x : CodePiece} : x.text ≠ [] := by cases x <;> simp [CodePiece.text]

theorem pick_code {l : List CodePiece} (hl : l.all CodePiece.ok = true) (hne : l ≠ []) {t : Str} (ht : CodeEnd t) :
    pick Rule.re defaultRules (syms (l.flatMap CodePiece.text ++ t)) =
      some (⟨.CODE, plus codeStep, []⟩, (l.flatMap CodePiece.text).length) := by
  obtain ⟨h1, h2⟩ := longest_code hl hne ht
  cases l with
  | nil => exact absurd rfl hne
  | cons x l =>
  simp only [List.all_cons, Bool.and_eq_true] at hl
  -- what the code starts with
  have hx : ∀ t', NoHead (· == '"') (x.text ++ t') ∧ NoHead (· == '`') (x.text ++ t') ∧
      ¬ ['/', '/'] <+: (x.text ++ t') ∧ ¬ ['/', '*'] <+: (x.text ++ t') := by
    intro t'
    cases x with
    | ch c =>
      have := hl.1
      simp [CodePiece.ok] at this
      obtain ⟨a, b, c', d⟩ := special_ne this
      simp [CodePiece.text, NoHead, a, c', Ne.symm b]
    | slash c =>
      have := hl.1
      simp [CodePiece.ok] at this
      obtain ⟨a, b, c', d⟩ := special_ne this.1
      simp [CodePiece.text, NoHead, Ne.symm b, Ne.symm this.2]
    | esc s w => simp [CodePiece.text, NoHead]
  have hx' := hx (l.flatMap CodePiece.text ++ t)
  rw [← List.append_assoc, ← List.flatMap_cons] at hx'
  refine pick_only (i := 3) rfl h1 fun j q hj hq => ?_
  refine default_idx (P := fun j q => j ≠ 3 → longest q.re _ = none) ?_ ?_ ?_ ?_ ?_ ?_ j q hq hj
  · intro _; exact str_no hx'.1
  · intro _; exact line_no hx'.2.2.1
  · intro _; exact comment_no hx'.2.2.2
  · intro h; exact absurd rfl h
  · intro _; exact h2
  · intro _; exact set1_no hx'.2.1

end Verif.Pp
