import Mathlib.Data.List.Chain
import Verif.VhdlRuleLemmas
/-!
# The languages of the rules of the VHDL lexer: words and numbers
-/
namespace Verif.Vhdl
open Verif.Antlr Verif.Antlr.Re Verif.Spec Verif.Spec.Lrm

/-! ## Upper and lower case -/

/-- The lower case letters. -/
def lows : List Char := (List.range' 97 26).map Char.ofNat

theorem toLower_cases (x : Char) : x.toLower = x ∨ x ∈ (List.range' 65 26).map Char.ofNat := by
  unfold Char.toLower
  split
  · rename_i h
    right
    refine mem_range (a := 65) (b := 90) ?_ ?_
    · have := h.1; rw [ge_iff_le, UInt32.le_iff_toNat_le] at this; exact this
    · have := h.2; rw [UInt32.le_iff_toNat_le] at this; exact this
  · exact .inl rfl

theorem ci_iff {c : Char} (hc : c ∈ lows) (x : Char) : x ∈ [c, c.toUpper] ↔ x.toLower = c := by
  constructor
  · intro h
    have key : ∀ c ∈ lows, ∀ x ∈ [c, c.toUpper], x.toLower = c := by decide +kernel
    exact key c hc x h
  · intro h
    rcases toLower_cases x with e | e
    · rw [e] at h; simp [h]
    · have key : ∀ x ∈ (List.range' 65 26).map Char.ofNat, x = x.toLower.toUpper := by decide +kernel
      rw [← h]
      simp only [List.mem_cons, List.not_mem_nil, or_false]
      exact .inr (key x e)

theorem cls_ci {c : Char} (hc : c ∈ lows) (w : Str) : L (ci c) w ↔ ∃ x, w = [x] ∧ x.toLower = c := by
  rw [ci, L_set]; simp only [ci_iff hc]

theorem L_ciLit {t : Str} (ht : ∀ c ∈ t, c ∈ lows) (w : Str) : L (ciLit t) w ↔ w.map Char.toLower = t := by
  induction t generalizing w with
  | nil => rw [ciLit, L_eps]; simp
  | cons c t ih =>
    cases t with
    | nil =>
      rw [ciLit, cls_ci (ht c (by simp))]
      constructor
      · rintro ⟨x, rfl, h⟩; simp [h]
      · intro h
        rw [List.map_eq_cons_iff] at h
        obtain ⟨x, l, rfl, h, e⟩ := h
        simp at e; subst e
        exact ⟨x, rfl, h⟩
    | cons d t =>
      rw [ciLit, L_seq]
      · constructor
        · rintro ⟨u, v, rfl, h1, h2⟩
          obtain ⟨x, rfl, hx⟩ := (cls_ci (ht c (by simp)) u).1 h1
          rw [ih (fun e he => ht e (by simp at he ⊢; tauto))] at h2
          simp [hx, h2]
        · intro h
          obtain ⟨x, l, rfl, h, e⟩ := List.map_eq_cons_iff.1 h
          refine ⟨[x], l, rfl, (cls_ci (ht c (by simp)) _).2 ⟨x, rfl, h⟩, ?_⟩
          rw [ih (fun e he => ht e (by simp at he ⊢; tauto))]
          exact e
      · simp

/-- Letters stay letters. -/
theorem letter_of_lower {x : Char} (h : x.toLower ∈ lows) : letter x = true ∧ letterL x = true ∧ digit x = false ∧ x ≠ '"' ∧ x ≠ '_' := by
  have key : ∀ x ∈ lows ++ (List.range' 65 26).map Char.ofNat, letter x = true ∧ letterL x = true ∧ digit x = false ∧ x ≠ '"' ∧ x ≠ '_' := by
    decide +kernel
  refine key x ?_
  rw [List.mem_append]
  rcases toLower_cases x with e | e
  · rw [e] at h; exact .inl h
  · exact .inr e

theorem kw_lows (k : Kw) : ∀ c ∈ k.text, c ∈ lows := by cases k <;> decide +kernel
theorem kw_text (k : Kw) : k.text = word k := by cases k <;> rfl
theorem L_kw (k : Kw) (w : Str) : L (ciLit k.text) w ↔ w.map Char.toLower = word k := by
  rw [L_ciLit (kw_lows k), kw_text]

theorem base_lows : ∀ t ∈ baseSpecifiers, ∀ c ∈ t, c ∈ lows := by decide +kernel

theorem L_base (w : Str) : L BASE_SPECIFIER w ↔ w.map Char.toLower ∈ baseSpecifiers := by
  have e : BASE_SPECIFIER = alts (baseSpecifiers.map ciLit) := rfl
  rw [e, L_alts]
  simp only [List.mem_map]
  constructor
  · rintro ⟨r, ⟨t, ht, rfl⟩, h⟩
    rw [L_ciLit (base_lows t ht)] at h
    rw [h]; exact ht
  · intro h
    exact ⟨_, ⟨_, h, rfl⟩, (L_ciLit (base_lows _ h) w).2 rfl⟩

theorem base_letters {w : Str} (h : w.map Char.toLower ∈ baseSpecifiers) : ∀ c ∈ w, c.toLower ∈ lows := fun _ hc =>
  base_lows _ h _ (List.mem_map_of_mem hc)
theorem base_ne {w : Str} (h : w.map Char.toLower ∈ baseSpecifiers) : w ≠ [] := by rintro rfl; revert h; decide

/-! ## Numbers -/

theorem e_lows : 'e' ∈ lows := by decide

theorem lower_e {x : Char} : x.toLower = 'e' ↔ x = 'e' ∨ x = 'E' := by
  rw [← ci_iff e_lows]; simp

theorem L_exponent (w : Str) : L EXPONENT w ↔ Exponent w := by
  rw [EXPONENT, L_alt]
  constructor
  · rintro (h | h)
    · obtain ⟨u, v, rfl, h1, h2⟩ := L_seq.1 h
      obtain ⟨a, b, rfl, h3, h4⟩ := L_seq.1 h2
      obtain ⟨x, rfl, hx⟩ := (cls_ci e_lows _).1 h1
      refine ⟨x, a, b, rfl, lower_e.1 hx, ?_, (L_integer _).1 h4⟩
      rcases L_opt.1 h3 with h3 | rfl
      · obtain ⟨y, rfl, hy⟩ := L_set.1 h3
        simp at hy; subst hy; exact .inr (.inl rfl)
      · exact .inl rfl
    · obtain ⟨u, v, rfl, h1, h2⟩ := L_seq.1 h
      obtain ⟨a, b, rfl, h3, h4⟩ := L_seq.1 h2
      obtain ⟨x, rfl, hx⟩ := (cls_ci e_lows _).1 h1
      obtain ⟨y, rfl, hy⟩ := L_set.1 h3
      simp at hy; subst hy
      exact ⟨x, ['-'], b, rfl, lower_e.1 hx, .inr (.inr rfl), (L_integer _).1 h4⟩
  · rintro ⟨x, s, i, rfl, hx, hs, hi⟩
    have h1 := (cls_ci e_lows [x]).2 ⟨x, rfl, lower_e.2 hx⟩
    have h4 := (L_integer i).2 hi
    rcases hs with rfl | rfl | rfl
    · exact .inl (L_seq.2 ⟨[x], i, rfl, h1, L_seq.2 ⟨[], i, rfl, L_opt.2 (.inr rfl), h4⟩⟩)
    · exact .inl (L_seq.2 ⟨[x], '+' :: i, rfl, h1, L_seq.2 ⟨['+'], i, rfl, L_opt.2 (.inl (L_set.2 ⟨_, rfl, by simp⟩)), h4⟩⟩)
    · exact .inr (L_seq.2 ⟨[x], '-' :: i, rfl, h1, L_seq.2 ⟨['-'], i, rfl, L_set.2 ⟨_, rfl, by simp⟩, h4⟩⟩)

theorem L_optExp (w : Str) : L (Re.opt EXPONENT) w ↔ Opt Exponent w := by
  rw [L_opt, L_exponent, Opt, or_comm]

theorem L_optFrac {r : Re} {p : Char → Bool} (h : ∀ w, L r w ↔ grouped p w = true) (w : Str) :
    L (Re.opt (seq (set ['.']) r)) w ↔ Opt (fun f => ∃ j, f = '.' :: j ∧ grouped p j = true) w := by
  rw [L_opt, Opt, or_comm, L_seq]
  constructor
  · rintro (h' | ⟨u, v, rfl, h1, h2⟩)
    · exact .inl h'
    · obtain ⟨x, rfl, hx⟩ := L_set.1 h1
      simp at hx; subst hx
      exact .inr ⟨v, rfl, (h v).1 h2⟩
  · rintro (h' | ⟨j, rfl, hj⟩)
    · exact .inl h'
    · exact .inr ⟨['.'], j, rfl, L_set.2 ⟨_, rfl, by simp⟩, (h j).2 hj⟩

theorem L_decimal (w : Str) : L DECIMAL_LITERALr w ↔ Decimal w := by
  rw [DECIMAL_LITERALr, L_seq]
  constructor
  · rintro ⟨i, v, rfl, h1, h2⟩
    obtain ⟨f, x, rfl, h3, h4⟩ := L_seq.1 h2
    exact ⟨i, f, x, rfl, (L_integer i).1 h1, (L_optFrac L_integer f).1 h3, (L_optExp x).1 h4⟩
  · rintro ⟨i, f, x, rfl, h1, h2, h3⟩
    exact ⟨i, f ++ x, rfl, (L_integer i).2 h1, L_seq.2 ⟨f, x, rfl, (L_optFrac L_integer f).2 h2, (L_optExp x).2 h3⟩⟩

/-- Based literals with the digits of `p`. -/
def BasedG (p : Char → Bool) (w : Str) : Prop := ∃ b i f x, w = b ++ '#' :: (i ++ (f ++ '#' :: x)) ∧ grouped digit b = true ∧
  grouped p i = true ∧ Opt (fun f => ∃ j, f = '.' :: j ∧ grouped p j = true) f ∧ Opt Exponent x

theorem L_hash {r : Re} {w : Str} : L (seq (set ['#']) r) w ↔ ∃ v, w = '#' :: v ∧ L r v := by
  rw [L_seq]
  constructor
  · rintro ⟨u, v, rfl, h1, h2⟩
    obtain ⟨x, rfl, hx⟩ := L_set.1 h1
    simp at hx; subst hx
    exact ⟨v, rfl, h2⟩
  · rintro ⟨v, rfl, h⟩
    exact ⟨['#'], v, rfl, L_set.2 ⟨_, rfl, by simp⟩, h⟩

theorem L_based (w : Str) : L BASED_LITERALr w ↔ BasedG alnumL w := by
  rw [BASED_LITERALr, L_seq]
  constructor
  · rintro ⟨b, v, rfl, h1, h2⟩
    obtain ⟨v1, rfl, h2'⟩ := L_hash.1 h2
    obtain ⟨i, v2, rfl, h3, h4⟩ := L_seq.1 h2'
    obtain ⟨f, v3, rfl, h5, h6⟩ := L_seq.1 h4
    obtain ⟨x, rfl, h7⟩ := L_hash.1 h6
    exact ⟨b, i, f, x, rfl, (L_integer b).1 h1, (L_basedInt i).1 h3, (L_optFrac L_basedInt f).1 h5, (L_optExp x).1 h7⟩
  · rintro ⟨b, i, f, x, rfl, h1, h2, h3, h4⟩
    exact ⟨b, _, rfl, (L_integer b).2 h1, L_hash.2 ⟨_, rfl, L_seq.2 ⟨i, _, rfl, (L_basedInt i).2 h2, L_seq.2 ⟨f, _, rfl,
      (L_optFrac L_basedInt f).2 h3, L_hash.2 ⟨x, rfl, (L_optExp x).2 h4⟩⟩⟩⟩⟩

/-! ## The end of a number -/

/-- What can follow a character in a number. -/
def adj (a b : Char) : Prop := (digit a = true → wordChar b = true ∨ b = '.') ∧ (a = '.' → digit b = true)

theorem digit_word {c : Char} (h : digit c = true) : wordChar c = true := by simp [wordChar, h]
theorem digit_dot {c : Char} (h : digit c = true) : c ≠ '.' := by rintro rfl; revert h; decide

theorem chain_of {l : Str} (h1 : ∀ c ∈ l, c ≠ '.') (h2 : ∀ c ∈ l, wordChar c = true) : List.IsChain adj l := by
  induction l with
  | nil => exact .nil
  | cons c l ih =>
    cases l with
    | nil => exact .singleton _
    | cons d l =>
      refine .cons_cons ⟨fun _ => .inl (h2 d (by simp)), fun e => absurd e (h1 c (by simp))⟩ (ih ?_ ?_)
      · intro x hx; exact h1 x (by simp at hx ⊢; tauto)
      · intro x hx; exact h2 x (by simp at hx ⊢; tauto)

theorem grouped_word {w : Str} (h : grouped digit w = true) : ∀ c ∈ w, c ≠ '.' ∧ wordChar c = true := by
  intro c hc
  have := List.all_eq_true.1 (grouped_all h) c hc
  rcases Bool.or_eq_true _ _ ▸ this with h | h
  · exact ⟨digit_dot h, digit_word h⟩
  · simp at h; subst h; decide

theorem chain_int {w : Str} (h : grouped digit w = true) : List.IsChain adj w :=
  chain_of (fun c hc => (grouped_word h c hc).1) fun c hc => (grouped_word h c hc).2

theorem _root_.Verif.Spec.Lrm.Exponent.chain {w : Str} (h : Exponent w) : List.IsChain adj w := by
  obtain ⟨e, s, i, rfl, he, hs, hi⟩ := h
  have h1 : ∀ c, adj e c := fun c => ⟨fun h => by rcases he with rfl | rfl <;> exact absurd h (by decide), fun h => by
    rcases he with rfl | rfl <;> exact absurd h (by decide)⟩
  obtain ⟨d, j, rfl, hd⟩ := grouped_head hi
  rcases hs with rfl | rfl | rfl
  · exact .cons_cons (h1 _) (chain_int hi)
  · exact .cons_cons (h1 _) (.cons_cons ⟨fun h => absurd h (by decide), fun h => absurd h (by decide)⟩ (chain_int hi))
  · exact .cons_cons (h1 _) (.cons_cons ⟨fun h => absurd h (by decide), fun h => absurd h (by decide)⟩ (chain_int hi))

theorem _root_.Verif.Spec.Lrm.Exponent.last {w : Str} (h : Exponent w) : ∃ s c, w = s ++ [c] ∧ digit c = true := by
  obtain ⟨e, s, i, rfl, he, hs, hi⟩ := h
  obtain ⟨t, c, rfl, hc⟩ := grouped_last hi
  exact ⟨e :: (s ++ t), c, by simp, hc⟩

theorem _root_.Verif.Spec.Lrm.Exponent.head {w : Str} (h : Exponent w) : ∃ c s, w = c :: s ∧ wordChar c = true := by
  obtain ⟨e, s, i, rfl, he, hs, hi⟩ := h
  exact ⟨e, _, rfl, by rcases he with rfl | rfl <;> decide⟩

theorem _root_.Verif.Spec.Lrm.Decimal.chain {w : Str} (h : Decimal w) : List.IsChain adj w := by
  obtain ⟨i, f, x, rfl, hi, hf, hx⟩ := h
  have hx1 : List.IsChain adj x := by
    rcases hx with rfl | hx
    · exact .nil
    · exact hx.chain
  have hx2 : ∀ c ∈ x.head?, wordChar c = true := by
    rcases hx with rfl | hx
    · simp
    · obtain ⟨c, s, rfl, h⟩ := hx.head; simpa using h
  refine List.isChain_append.2 ⟨chain_int hi, ?_, ?_⟩
  · rcases hf with rfl | ⟨j, rfl, hj⟩
    · exact hx1
    · obtain ⟨d, k, rfl, hd⟩ := grouped_head hj
      refine .cons_cons ⟨fun h => absurd h (by decide), fun _ => hd⟩ (List.isChain_append.2 ⟨chain_int hj, hx1, ?_⟩)
      intro a ha b hb
      refine ⟨fun _ => .inl (hx2 b hb), fun e => ?_⟩
      exact absurd e (grouped_word hj a (List.mem_of_getLast? ha)).1
  · intro a ha b hb
    refine ⟨fun _ => ?_, fun e => absurd e (grouped_word hi a (List.mem_of_getLast? ha)).1⟩
    rcases hf with rfl | ⟨j, rfl, hj⟩
    · exact .inl (hx2 b hb)
    · simp at hb; exact .inr hb.symm

theorem _root_.Verif.Spec.Lrm.Decimal.last {w : Str} (h : Decimal w) : ∃ s c, w = s ++ [c] ∧ digit c = true := by
  obtain ⟨i, f, x, rfl, hi, hf, hx⟩ := h
  rcases hx with rfl | hx
  · rcases hf with rfl | ⟨j, rfl, hj⟩
    · obtain ⟨s, c, rfl, h⟩ := grouped_last hi; exact ⟨s, c, by simp, h⟩
    · obtain ⟨s, c, rfl, h⟩ := grouped_last hj; exact ⟨i ++ '.' :: s, c, by simp, h⟩
  · obtain ⟨s, c, rfl, h⟩ := hx.last; exact ⟨i ++ (f ++ s), c, by simp, h⟩

/-- A decimal literal ends where it has to be separated from what follows. -/
theorem _root_.Verif.Spec.Lrm.Decimal.upto {w r u : Str} (hw : Decimal w) (h1 : NotHead wordChar r) (h2 : ∀ c s, r = '.' :: c :: s → digit c = false) (hu : Decimal u)
    (hp : u <+: w ++ r) : u.length ≤ w.length := by
  by_contra hc
  obtain ⟨c, v, t, rfl, rfl⟩ := longer hp (by omega)
  obtain ⟨s, d, rfl, hd⟩ := hw.last
  have hch := List.isChain_append.1 hu.chain
  have h3 := h1 c (by simp)
  rcases (hch.2.2 d (by simp) c (by simp)).1 hd with h | h
  · rw [h] at h3; cases h3
  · subst h
    cases v with
    | nil =>
      obtain ⟨s', c', e, h⟩ := hu.last
      have e := congrArg List.getLast? e
      simp at e
      subst e; revert h; decide
    | cons x v =>
      have h4 := h2 x (v ++ t) rfl
      have := hch.2.1
      rw [List.isChain_cons_cons] at this
      rw [this.1.2 rfl] at h4; cases h4

theorem integer_decimal {w : Str} (h : grouped digit w = true) : Decimal w := ⟨w, [], [], by simp, h, .inl rfl, .inl rfl⟩

/-- The digits in front of a number. -/
def numHead (c : Char) : Bool := digit c || c == '_'

theorem int_all {w : Str} (h : grouped digit w = true) : w.all numHead = true := grouped_all h

/-- An exponent ends where it has to be separated from what follows. -/
theorem _root_.Verif.Spec.Lrm.Exponent.upto {w r u : Str} (hw : Opt Exponent w) (h1 : NotHead wordChar r) (hu : Opt Exponent u) (hp : u <+: w ++ r) :
    u.length ≤ w.length := by
  by_contra hc
  obtain ⟨c, v, t, rfl, rfl⟩ := longer hp (by omega)
  have h3 := h1 c (by simp)
  rcases hu with hu | hu
  · simp at hu
  rcases hw with rfl | hw
  · obtain ⟨c', s, e, h⟩ := hu.head
    cases e; rw [h] at h3; cases h3
  · obtain ⟨s, d, rfl, hd⟩ := hw.last
    have hch := List.isChain_append.1 hu.chain
    rcases (hch.2.2 d (by simp) c (by simp)).1 hd with h | h
    · rw [h] at h3; cases h3
    · subst h
      obtain ⟨e, sg, i, e1, he, hs, hi⟩ := hu
      have hm : '.' ∈ e :: (sg ++ i) := by rw [← e1]; simp
      simp only [List.mem_cons, List.mem_append] at hm
      rcases hm with rfl | hm | hm
      · rcases he with he | he <;> exact absurd he (by decide)
      · rcases hs with rfl | rfl | rfl <;> simp at hm
      · exact (grouped_word hi _ hm).1 rfl

/-- No number sign inside. -/
theorem noHash_digit {w : Str} (h : grouped digit w = true) : w.all (· != '#') = true := by
  rw [List.all_eq_true]; intro c hc
  have := (grouped_word h c hc).2
  simp only [bne_iff_ne]
  rintro rfl; revert this; decide

theorem noHash_mid {p : Char → Bool} (hp : p '#' = false) {i f : Str} (hi : grouped p i = true)
    (hf : Opt (fun f => ∃ j, f = '.' :: j ∧ grouped p j = true) f) : (i ++ f).all (· != '#') = true := by
  have key : ∀ {w : Str}, grouped p w = true → w.all (· != '#') = true := by
    intro w h
    rw [List.all_eq_true]; intro c hc
    have := List.all_eq_true.1 (grouped_all h) c hc
    simp only [bne_iff_ne]
    rintro rfl
    rw [hp] at this; exact absurd this (by decide)
  rw [List.all_append, key hi]
  rcases hf with rfl | ⟨j, rfl, hj⟩
  · rfl
  · rw [List.all_cons, key hj]; rfl

/-- A based literal ends where it has to be separated from what follows. -/
theorem BasedG.upto {p q : Char → Bool} (hp : p '#' = false) (hq : q '#' = false) {w r u : Str} (hw : BasedG p w) (h1 : NotHead wordChar r)
    (hu : BasedG q u) (hpre : u <+: w ++ r) : u.length ≤ w.length := by
  obtain ⟨b, i, f, x, rfl, hb, hi, hf, hx⟩ := hw
  obtain ⟨b', i', f', x', rfl, hb', hi', hf', hx'⟩ := hu
  obtain ⟨t, e⟩ := hpre
  have e : b' ++ '#' :: ((i' ++ f') ++ '#' :: (x' ++ t)) = b ++ '#' :: ((i ++ f) ++ '#' :: (x ++ r)) := by simpa using e
  obtain ⟨rfl, -, e⟩ := split_at (· != '#') (noHash_digit hb') (noHash_digit hb) (by decide) (by decide) e
  obtain ⟨e2, -, e⟩ := split_at (· != '#') (noHash_mid hq hi' hf') (noHash_mid hp hi hf) (by decide) (by decide) e
  have := Exponent.upto hx h1 hx' ⟨t, e⟩
  have e3 := congrArg List.length e2
  simp only [List.length_append, List.length_cons] at e3 ⊢
  omega

end Verif.Vhdl
