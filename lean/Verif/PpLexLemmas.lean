import Verif.AntlrLemmas
import Verif.PpParser
/-!
# Lemmas about the lexer of the preprocessor
-/
namespace Verif.Pp
open Verif.Antlr Verif.Antlr.Re

theorem rules_nonnull (m : Mode) : (rules m).all (fun r => !r.re.nullable) = true := by
  cases m <;> rfl

theorem pick_pos {m : Mode} {s : List Sym} {r : Rule} {n : Nat} (h : pick Rule.re (rules m) s = some (r, n)) :
    0 < n := by
  obtain ⟨hr, hl⟩ := pick_some h
  have hn := List.all_eq_true.1 (rules_nonnull m) r hr
  rcases Nat.eq_zero_or_pos n with rfl | h0
  · have := (longest_some_iff.1 hl).2.1
    rw [List.take_zero, ← nullable_iff] at this
    simp [this] at hn
  · exact h0

theorem lexFrom_congr {f g : Nat} {st : St} {pos : Nat × Nat} {idx : Nat} {s : Str} (hf : s.length ≤ f)
    (hg : s.length ≤ g) : lexFrom f st pos idx s = lexFrom g st pos idx s := by
  induction f generalizing g st pos idx s with
  | zero =>
    have : s = [] := List.length_eq_zero_iff.1 (by omega)
    subst this
    cases g <;> simp [lexFrom]
  | succ f ih =>
    cases s with
    | nil => cases g <;> simp [lexFrom]
    | cons c s =>
      cases g with
      | zero => simp at hg
      | succ g =>
        simp only [lexFrom]
        cases hp : pick Rule.re (rules st.mode) (syms (c :: s)) with
        | none => rfl
        | some x =>
          obtain ⟨r, n⟩ := x
          have hpos := pick_pos hp
          simp only
          split
          · rfl
          · rw [ih (g := g)]
            · simp at hf ⊢; omega
            · simp at hg ⊢; omega

/-- The tokens of the rest of a text. -/
def lexR (st : St) (pos : Nat × Nat) (idx : Nat) (s : Str) : Option (List Tok) := lexFrom s.length st pos idx s

theorem lexR_nil (st : St) (pos : Nat × Nat) (idx : Nat) : lexR st pos idx [] = some [] := rfl

/-- What a rule makes of its match: the token, if it is not skipped. -/
def emit (o : Out) (pos : Nat × Nat) (idx len : Nat) : List Tok :=
  if o.skip then [] else [⟨o.ty, o.chan, o.text, pos.1, pos.2, idx, idx + len⟩]

theorem lexR_step {st : St} {pos : Nat × Nat} {idx : Nat} {s : Str} {r : Rule} {n : Nat} (hs : s ≠ [])
    (hp : pick Rule.re (rules st.mode) (syms s) = some (r, n)) :
    lexR st pos idx s =
      if (r.exec st (s.take n)).fail then none
      else (lexR (r.exec st (s.take n)).st (advance pos (s.take n)) (idx + (s.take n).length) (s.drop n)).map
        (fun ts => emit (r.exec st (s.take n)) pos idx (s.take n).length ++ ts) := by
  have hpos := pick_pos hp
  cases s with
  | nil => exact absurd rfl hs
  | cons c s =>
    unfold lexR
    rw [List.length_cons]
    simp only [lexFrom, hp]
    split
    · rfl
    · rw [lexFrom_congr (g := (List.drop n (c :: s)).length) (by simp; omega) le_rfl]
      cases lexFrom (List.drop n (c :: s)).length _ _ _ _ with
      | none => rfl
      | some ts => simp only [emit, Option.map_some]; split <;> rfl

theorem lexR_none {st : St} {pos : Nat × Nat} {idx : Nat} {s : Str} (hs : s ≠ [])
    (hp : pick Rule.re (rules st.mode) (syms s) = none) : lexR st pos idx s = none := by
  cases s with
  | nil => exact absurd rfl hs
  | cons c s => simp [lexR, lexFrom, hp]

theorem advance_fst (p : Nat × Nat) (s : Str) : (advance p s).1 = p.1 + nl s := by
  induction s generalizing p with
  | nil => simp [advance, nl]
  | cons c s ih =>
    obtain ⟨l, k⟩ := p
    rw [advance]
    split
    · rename_i h; subst h; rw [ih]; simp [nl]; omega
    · rename_i h; rw [ih]; simp [nl, h]

theorem advance_append (p : Nat × Nat) (s t : Str) : advance p (s ++ t) = advance (advance p s) t := by
  induction s generalizing p with
  | nil => rfl
  | cons c s ih =>
    obtain ⟨l, k⟩ := p
    simp only [List.cons_append, advance]
    split <;> exact ih _

/-! ## texts without a back-tick -/

/-- Tokens of a run of copied pieces of text. -/
def plainToks : Nat × Nat → Nat → List (TT × Str) → List Tok
  | _, _, [] => []
  | p, i, (ty, t) :: r => ⟨ty, .default, t, p.1, p.2, i, i + t.length⟩ :: plainToks (advance p t) (i + t.length) r

/-- What a rule of the default mode which is not started by a back-tick does. -/
theorem default_plain {s : Str} (hbt : '`' ∉ s) {r : Rule} {n : Nat}
    (hp : pick Rule.re (rules .default) (syms s) = some (r, n)) (st : St) (t : Str) :
    ∃ ty, copied ty = true ∧ r.exec st t = ⟨st, ty, false, .default, t, false⟩ := by
  obtain ⟨hr, hl⟩ := pick_some hp
  have hm := longest_some_iff.1 hl
  have hno : some '`' ∉ (syms s).take n := by
    intro h
    have := List.mem_of_mem_take h
    simp [syms] at this
    exact hbt this
  simp only [rules, defaultRules, List.mem_cons, List.not_mem_nil, or_false] at hr
  rcases hr with rfl | rfl | rfl | rfl | rfl | rfl
  · exact ⟨_, rfl, rfl⟩
  · exact ⟨_, rfl, rfl⟩
  · exact ⟨_, rfl, rfl⟩
  · exact ⟨_, rfl, rfl⟩
  · exfalso
    obtain ⟨u, v, e, h1, h2⟩ := matches_seq.1 hm.2.1
    obtain ⟨u', v', e', h3, h4⟩ := matches_seq.1 h2
    obtain ⟨u'', v'', e'', h5, h6⟩ := matches_seq.1 h4
    cases h6 with
    | set h =>
      simp at h
      subst h
      exact hno (by rw [e, e', e'']; simp)
  · exfalso
    have h6 := hm.2.1
    generalize hw : (syms s).take n = w at h6 hno
    cases h6 with
    | set h =>
      simp at h
      subst h
      exact hno (by simp)

theorem syms_take_drop (s : Str) (n : Nat) : s.take n ++ s.drop n = s := List.take_append_drop n s

theorem lex_plain {s : Str} (hbt : '`' ∉ s) {st : St} (hst : st.mode = .default) (pos : Nat × Nat) (idx : Nat) :
    lexR st pos idx s = none ∨ ∃ l : List (TT × Str), lexR st pos idx s = some (plainToks pos idx l) ∧
      (l.map Prod.snd).flatten = s ∧ ∀ x ∈ l, copied x.1 = true := by
  generalize hk : s.length = k
  induction k using Nat.strong_induction_on generalizing s pos idx with
  | _ k ih =>
    by_cases hs : s = []
    · subst hs
      exact .inr ⟨[], by simp [lexR_nil, plainToks], rfl, by simp⟩
    · cases hp : pick Rule.re (rules st.mode) (syms s) with
      | none => exact .inl (lexR_none hs hp)
      | some x =>
        obtain ⟨r, n⟩ := x
        have hpos := pick_pos hp
        rw [lexR_step hs hp]
        rw [hst] at hp
        obtain ⟨ty, hty, he⟩ := default_plain hbt hp st (s.take n)
        rw [he]
        simp only [Bool.false_eq_true, if_false, emit]
        have hlen : 0 < s.length := List.length_pos_iff.2 hs
        rcases ih (s.drop n).length (by simp; omega) (s := s.drop n) (fun h => hbt (List.mem_of_mem_drop h))
          (advance pos (s.take n)) (idx + (s.take n).length) rfl with h | ⟨l, h1, h2, h3⟩
        · left; rw [h]; rfl
        · right
          refine ⟨(ty, s.take n) :: l, ?_, ?_, ?_⟩
          · rw [h1]; simp [plainToks]
          · simp only [List.map_cons, List.flatten_cons, h2, List.take_append_drop]
          · intro x hx
            simp at hx
            rcases hx with rfl | hx
            · exact hty
            · exact h3 x hx

theorem group_plain (p : Nat × Nat) (i : Nat) (l : List (TT × Str)) :
    ∃ e, group [] (plainToks p i l) = (plainToks p i l).map (fun t => ⟨t, []⟩) ++ [e] ∧ e.tok.ty = .EOF := by
  induction l generalizing p i with
  | nil => exact ⟨_, rfl, rfl⟩
  | cons x l ih =>
    obtain ⟨ty, t⟩ := x
    obtain ⟨e, h1, h2⟩ := ih (advance p t) (i + t.length)
    exact ⟨e, by simp [plainToks, group, h1], h2⟩

/-- The copied texts with their lines. -/
def codeNodes : Nat → List Str → Nodes
  | _, [] => .nil
  | l, t :: r => .cons (.code l t) (codeNodes (l + nl t) r)

theorem textStar_plain (lang : Nat) (input : Str) (p : Nat × Nat) (i : Nat) (l : List (TT × Str))
    (hl : ∀ x ∈ l, copied x.1 = true) (e : PTok) (he : e.tok.ty = .EOF) (f : Nat) (hf : l.length + 1 ≤ f) :
    textStar lang input f ((plainToks p i l).map (fun t => ⟨t, []⟩) ++ [e]) =
      some (codeNodes p.1 (l.map Prod.snd), [e]) := by
  induction l generalizing p i f with
  | nil =>
    obtain ⟨f, rfl⟩ := Nat.exists_eq_succ_of_ne_zero (by omega : f ≠ 0)
    simp [plainToks, textStar, he, copied, startsDirective, codeNodes]
  | cons x l ih =>
    obtain ⟨ty, t⟩ := x
    obtain ⟨f, rfl⟩ := Nat.exists_eq_succ_of_ne_zero (by omega : f ≠ 0)
    have h0 := hl (ty, t) (by simp)
    simp only [plainToks, List.map_cons, List.cons_append, Nat.succ_eq_add_one, textStar, h0, if_true]
    rw [ih _ _ (fun x hx => hl x (by simp [hx])) f (by simp at hf; omega)]
    simp [codeNodes, advance_fst]

/-- A text without back-ticks is rejected or the sequence of its tokens. -/
theorem parse_plain (lang : Nat) {s : Str} (hbt : '`' ∉ s) :
    parseText lang s = none ∨ ∃ toks : List Str, parseText lang s = some (codeNodes 1 toks) ∧ toks.flatten = s := by
  rcases lex_plain hbt (st := St.init) rfl (1, 0) 0 with h | ⟨l, h1, h2, h3⟩
  · left
    have : lex s = none := h
    simp [parseText, this]
  · right
    have : lex s = some (plainToks (1, 0) 0 l) := h1
    refine ⟨l.map Prod.snd, ?_, h2⟩
    obtain ⟨e, he1, he2⟩ := group_plain (1, 0) 0 l
    have hlen : (plainToks (1, 0) 0 l).length = l.length := by
      have : ∀ (p : Nat × Nat) (i : Nat), (plainToks p i l).length = l.length := by
        clear h1 h2 h3 this he1
        induction l with
        | nil => intros; rfl
        | cons x l ih => intros; simp [plainToks, ih]
      exact this _ _
    rw [parseText, this]
    simp only [Option.bind_eq_bind, Option.bind_some, file, he1]
    rw [textStar_plain lang s (1, 0) 0 l h3 e he2 _ (by simp [hlen])]
    simp [nextTy, he2]

end Verif.Pp
