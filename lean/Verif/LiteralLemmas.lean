import Verif.Literals
import Verif.Spec.Literal
import Verif.StrUtilsLemmas
/-!
# Helper lemmas about literals
-/
namespace Verif

theorem char_le_iff {a b : Char} : a ≤ b ↔ a.toNat ≤ b.toNat := by
  rw [Char.le_def, UInt32.le_iff_toNat_le]; rfl

theorem lowerC_eq (c : Char) : lowerC c = Spec.lower c := by
  unfold lowerC Spec.lower
  simp only [char_le_iff]
  rfl

theorem lowerS_eraseChar (s : Str) : lowerS (eraseChar '_' s) = Spec.canon s := by
  unfold lowerS eraseChar Spec.canon
  have : lowerC = Spec.lower := funext lowerC_eq
  rw [this]

theorem toNat_lower {c : Char} (h : 65 ≤ c.toNat ∧ c.toNat ≤ 90) : (Spec.lower c).toNat = c.toNat + 32 := by
  rw [Spec.lower, if_pos h]
  have h2 : ∀ n : Fin 200, (Char.ofNat n.val).toNat = n.val := by decide +kernel
  exact h2 ⟨c.toNat + 32, by omega⟩

theorem lower_of_not {c : Char} (h : ¬ (65 ≤ c.toNat ∧ c.toNat ≤ 90)) : Spec.lower c = c := by
  rw [Spec.lower, if_neg h]

theorem digitVal_lower (c : Char) : Spec.digitVal (Spec.lower c) = Spec.digitVal c := by
  by_cases h : 65 ≤ c.toNat ∧ c.toNat ≤ 90
  · unfold Spec.digitVal
    simp only [toNat_lower h]
    rw [if_neg (by omega), if_neg (by omega : ¬ (48 ≤ c.toNat ∧ c.toNat ≤ 57)), if_neg (by omega : ¬ (97 ≤ c.toNat ∧ c.toNat ≤ 102))]
    by_cases h2 : c.toNat ≤ 70
    · rw [if_pos (by omega), if_pos (by omega)]; congr 1
    · rw [if_neg (by omega), if_neg (by omega), if_neg (by omega)]
  · rw [lower_of_not h]

theorem lower_ne {c d : Char} (hd : ¬ (97 ≤ d.toNat ∧ d.toNat ≤ 122)) (h : c ≠ d) : Spec.lower c ≠ d := by
  by_cases h2 : 65 ≤ c.toNat ∧ c.toNat ≤ 90
  · intro he; have := toNat_lower h2; rw [he] at this; omega
  · rwa [lower_of_not h2]

theorem numValAcc_canon (b acc : Nat) (s : Str) : Spec.numValAcc b acc (Spec.canon s) = Spec.numValAcc b acc s := by
  induction s generalizing acc with
  | nil => rfl
  | cons c r ih =>
    unfold Spec.canon at ih ⊢
    by_cases h : c = '_'
    · subst h
      rw [List.filter_cons_of_neg (by simp), ih]; simp [Spec.numValAcc]
    · have h2 : Spec.lower c ≠ '_' := lower_ne (by decide) h
      simp only [ne_eq, h, not_false_eq_true, decide_true, List.filter_cons_of_pos, List.map_cons, Spec.numValAcc, h2,
        if_false, digitVal_lower]
      cases Spec.digitVal c with
      | none => rfl
      | some d => simp only; split <;> [exact ih _; rfl]

theorem numVal_canon (b : Nat) (s : Str) : Spec.numVal b (Spec.canon s) = Spec.numVal b s := numValAcc_canon b 0 s

theorem isDigitC_iff {c : Char} : isDigitC c = true ↔ 48 ≤ c.toNat ∧ c.toNat ≤ 57 := by
  unfold isDigitC
  simp only [Bool.and_eq_true, decide_eq_true_eq, char_le_iff]
  rfl

theorem digitVal_of_digit {c : Char} (h : 48 ≤ c.toNat ∧ c.toNat ≤ 57) : Spec.digitVal c = some (c.toNat - 48) := by
  unfold Spec.digitVal; simp only; rw [if_pos h]

theorem digit_ne_underscore {c : Char} (h : 48 ≤ c.toNat ∧ c.toNat ≤ 57) : c ≠ '_' := by
  rintro rfl; simp at h

theorem numValAcc_digits (acc : Nat) (s : Str) (h : ∀ c ∈ s, 48 ≤ c.toNat ∧ c.toNat ≤ 57) :
    Spec.numValAcc 10 acc s = some (digitsAcc acc s) := by
  induction s generalizing acc with
  | nil => rfl
  | cons c r ih =>
    have hc := h c (by simp)
    have e : Spec.numValAcc 10 acc (c :: r) = Spec.numValAcc 10 (acc * 10 + (c.toNat - 48)) r := by
      conv_lhs => unfold Spec.numValAcc
      have hu : ¬ c = '_' := digit_ne_underscore hc
      have hv := digitVal_of_digit hc
      simp only [hu, if_false, hv]
      have hk : c.toNat - 48 < 10 := by omega
      generalize c.toNat - 48 = k at hk ⊢
      simp only [hk, if_true]
    exact e.trans (ih (acc * 10 + (c.toNat - 48)) (fun d hd => h d (List.mem_cons_of_mem _ hd)))

theorem numValAcc_erase (b acc : Nat) (s : Str) : Spec.numValAcc b acc (eraseChar '_' s) = Spec.numValAcc b acc s := by
  induction s generalizing acc with
  | nil => rfl
  | cons c r ih =>
    unfold eraseChar at ih ⊢
    by_cases h : c = '_'
    · subst h
      rw [List.filter_cons_of_neg (by simp), ih]; simp [Spec.numValAcc]
    · simp only [ne_eq, h, not_false_eq_true, decide_true, List.filter_cons_of_pos, Spec.numValAcc, if_false]
      cases Spec.digitVal c with
      | none => rfl
      | some d => simp only; split <;> [exact ih _; rfl]

theorem isSpaceC_of_digit {c : Char} (h : 48 ≤ c.toNat ∧ c.toNat ≤ 57) : isSpaceC c = false := by
  unfold isSpaceC
  have h1 : c ≠ ' ' := by rintro rfl; simp at h
  simp only [h1, decide_false, Bool.false_or, Bool.and_eq_false_iff, decide_eq_false_iff_not, char_le_iff]
  right; have : '\x0d'.toNat = 13 := rfl
  omega

/-- `strtol` on a text that starts with a digit: the leading digits. -/
theorem strtol_digits {c : Char} {ds r : Str} (hc : 48 ≤ c.toNat ∧ c.toNat ≤ 57)
    (h : ∀ d ∈ ds, 48 ≤ d.toNat ∧ d.toNat ≤ 57) (hr : ∀ d, r.head? = some d → isDigitC d = false) :
    strtol (c :: ds ++ r) = some (digitsAcc 0 (c :: ds) : Int) := by
  unfold strtol
  have h1 : (c :: ds ++ r).dropWhile isSpaceC = c :: ds ++ r := by
    simp [isSpaceC_of_digit hc]
  have hm : c ≠ '-' := by rintro rfl; simp at hc
  have hp : c ≠ '+' := by rintro rfl; simp at hc
  rw [h1]
  have h2 : (c :: ds ++ r).takeWhile isDigitC = c :: ds := by
    rw [List.takeWhile_append_of_pos]
    · cases r with
      | nil => simp
      | cons d r => simp [List.takeWhile, hr d rfl]
    · intro d hd
      rw [isDigitC_iff]
      rcases List.mem_cons.1 hd with rfl | hd
      · exact hc
      · exact h d hd
  simp only [List.cons_append, List.head?_cons, Option.some.injEq, hm, hp, or_self, if_false] at h2 ⊢
  rw [h2]; simp

theorem eraseChar_unsigned {s : Str} (h : Spec.IsUnsignedNumber s) :
    ∃ c ds, eraseChar '_' s = c :: ds ∧ (48 ≤ c.toNat ∧ c.toNat ≤ 57) ∧ ∀ d ∈ ds, 48 ≤ d.toNat ∧ d.toNat ≤ 57 := by
  obtain ⟨⟨c, hc, hd⟩, h2⟩ := h
  cases s with
  | nil => simp at hc
  | cons a r =>
    simp only [List.head?_cons, Option.some.injEq] at hc
    subst hc
    refine ⟨a, eraseChar '_' r, by simp [eraseChar, digit_ne_underscore hd], hd, ?_⟩
    intro d hd'
    unfold eraseChar at hd'
    simp only [List.mem_filter, decide_eq_true_eq] at hd'
    rcases h2 d (by simp [hd'.1]) with h3 | h3
    · exact absurd h3 hd'.2
    · exact h3

theorem strtol_unsigned {s : Str} (h : Spec.IsUnsignedNumber s) :
    ∃ n : Nat, Spec.numVal 10 s = some n ∧ strtol (eraseChar '_' s) = some (n : Int) := by
  obtain ⟨c, ds, he, hc, hds⟩ := eraseChar_unsigned h
  refine ⟨digitsAcc 0 (c :: ds), ?_, ?_⟩
  · rw [Spec.numVal, ← numValAcc_erase, he]
    apply numValAcc_digits
    intro d hd
    rcases List.mem_cons.1 hd with rfl | hd
    · exact hc
    · exact hds d hd
  · rw [he]
    have := strtol_digits (r := []) hc hds (by simp)
    simpa using this

/-- `parseSize_UNSIGNED_NUMBER` on a size token: the number, if it fits an `int`. -/
theorem svParseSize_ok {s : Str} (h : Spec.IsUnsignedNumber s) {n : Nat} (hn : Spec.numVal 10 s = some n) (hb : n < 2147483648) :
    svParseSize s = .ok (n : Int) := by
  obtain ⟨m, hm, hs⟩ := strtol_unsigned h
  rw [hn] at hm; cases hm
  unfold svParseSize atoi
  rw [hs]
  have : fitsInt (n : Int) = true := by simp [fitsInt]; omega
  simp [this]

theorem svParseSize_ub {s : Str} (h : Spec.IsUnsignedNumber s) {n : Nat} (hn : Spec.numVal 10 s = some n) (hb : ¬ n < 2147483648) :
    svParseSize s = .error .ub := by
  obtain ⟨m, hm, hs⟩ := strtol_unsigned h
  rw [hn] at hm; cases hm
  unfold svParseSize atoi
  rw [hs]
  have : fitsInt (n : Int) = false := by simp [fitsInt]; omega
  simp [this]

end Verif
