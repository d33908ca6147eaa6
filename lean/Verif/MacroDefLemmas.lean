import Verif.Spec.Macro
import Verif.CppString
import Mathlib.Data.List.Sort
import Mathlib.Data.List.Nodup
import Mathlib.Data.List.Perm.Basic
/-! Helper lemmas about `MacroDef`. -/
namespace Verif
open Verif.Spec

/-! ## character classes -/

theorem isAlnum_eq (c : Char) : isAlnum c = c.isAlphanum := by
  simp only [isAlnum, Char.isAlphanum, Char.isAlpha, Char.isUpper, Char.isLower, Char.isDigit]
  have h : ∀ a b : Char, (decide (a ≤ b)) = decide (a.val ≤ b.val) := fun a b => rfl
  simp only [h]
  have : ('a' : Char).val = 97 ∧ ('z' : Char).val = 122 ∧ ('A' : Char).val = 65 ∧ ('Z' : Char).val = 90 ∧
    ('0' : Char).val = 48 ∧ ('9' : Char).val = 57 := by decide
  obtain ⟨h1, h2, h3, h4, h5, h6⟩ := this
  rw [h1, h2, h3, h4, h5, h6]
  simp only [ge_iff_le]
  grind

theorem isWordPre_eq (c : Char) : isWordPre c = isIdChar c := by
  simp [isWordPre, isIdChar, isAlnum_eq]

theorem isWordPost_eq (c : Char) : isWordPost c = stopCode c := by
  simp [isWordPost, stopCode, isOpenBracket, isIdChar, isAlnum_eq, Bool.or_assoc]

/-! ## state of the quote scanner at a position -/

def prevChar (s : Str) : Nat → Option Char
  | 0 => none
  | i + 1 => s[i]?

/-- scanner state before reading position `i` -/
def stAt (s : Str) : Nat → Bool
  | 0 => false
  | i + 1 => match s[i]? with
    | some c => stAt s i != isQuote (prevChar s i) c
    | none => stAt s i

theorem drop_cons {s : Str} {i : Nat} {c : Char} (h : s[i]? = some c) : s.drop i = c :: s.drop (i + 1) := by
  have hi : i < s.length := by
    by_contra hc; rw [List.getElem?_eq_none (by omega)] at h; simp at h
  rw [List.drop_eq_getElem_cons hi]
  rw [List.getElem?_eq_getElem hi] at h
  simp at h; rw [h]

theorem endsInString_at (s : Str) (i : Nat) (hi : i ≤ s.length) :
    endsInString (stAt s i) (prevChar s i) (s.drop i) = stAt s s.length := by
  induction h : s.length - i generalizing i with
  | zero =>
    have : i = s.length := by omega
    subst this; simp [endsInString]
  | succ n ih =>
    have hlt : i < s.length := by omega
    have hc : s[i]? = some s[i] := List.getElem?_eq_getElem hlt
    rw [drop_cons hc, endsInString]
    have := ih (i + 1) (by omega) (by omega)
    rw [← this]
    simp [stAt, prevChar, hc]

def inInts (ints : List (Nat × Nat)) (i : Nat) : Prop := ∃ p ∈ ints, p.1 ≤ i ∧ i < p.1 + p.2

theorem checkIsInString_none {ints : List (Nat × Nat)} {i : Nat} :
    checkIsInString ints i = none ↔ ¬ inInts ints i := by
  simp [checkIsInString, inInts]

theorem checkIsInString_some {ints : List (Nat × Nat)} {i : Nat} {p : Nat × Nat}
    (h : checkIsInString ints i = some p) : p ∈ ints ∧ p.1 ≤ i ∧ i < p.1 + p.2 := by
  have h1 := List.mem_of_find?_eq_some h
  have h2 := List.find?_some h
  simp at h2
  exact ⟨h1, h2.1, h2.2⟩

theorem collectLoop_at (name s : Str) (fuel pos : Nat) (prev : Option Nat) (acc : List (Nat × Nat))
    (hfind : find s ['"'] pos = some pos) : collectLoop name s (fuel + 1) pos prev acc =
      (if pos ≠ 0 ∧ (s[pos - 1]? = some '`' ∨ s[pos - 1]? = some '\\') then collectLoop name s fuel (pos + 1) prev acc
      else match prev with
        | none => collectLoop name s fuel (pos + 1) (some pos) acc
        | some q => collectLoop name s fuel (pos + 1) none (acc ++ [(q, pos - q)])) := by
  rw [collectLoop.eq_def]
  simp only [hfind]
  cases prev <;> rfl

theorem collectLoop_spec (name s : Str) (fuel pos : Nat) (prev : Option Nat) (acc : List (Nat × Nat))
    (hpos : pos ≤ s.length) (hf : s.length - pos < fuel)
    (h1 : prev.isSome = stAt s pos)
    (h2 : ∀ q, prev = some q → q < pos)
    (h3 : ∀ p ∈ acc, p.1 + p.2 < pos)
    (h4 : ∀ i < pos, s[i]? ≠ some '"' → ((inInts acc i ∨ ∃ q, prev = some q ∧ q ≤ i) ↔ stAt s i = true)) :
    if stAt s s.length then
      collectLoop name s fuel pos prev acc =
        .error (.parse (c! "Unfinished string in definition of macro " ++ name ++ c! "."))
    else ∃ ints, collectLoop name s fuel pos prev acc = .ok ints ∧
      (∀ p ∈ ints, p.1 + p.2 ≤ s.length) ∧
      (∀ i < s.length, s[i]? ≠ some '"' → (inInts ints i ↔ stAt s i = true)) := by
  induction hn : s.length - pos generalizing fuel pos prev acc with
  | zero =>
    have hp : pos = s.length := by omega
    subst hp
    cases fuel with
    | zero => omega
    | succ fuel =>
      have hfind : find s ['"'] s.length = none := by
        rw [find_none]
        intro j hj1 hj2
        have : j = s.length := by omega
        subst this; simp
      rw [collectLoop.eq_def]
      simp only [hfind]
      cases prev with
      | none =>
        simp at h1
        rw [if_neg (by simp [← h1])]
        exact ⟨acc, rfl, fun p hp => (h3 p hp).le, fun i hi hq => by simpa using h4 i hi hq⟩
      | some q =>
        simp at h1
        rw [if_pos (by rw [← h1])]
  | succ n ih =>
    cases fuel with
    | zero => omega
    | succ fuel =>
    have hlt : pos < s.length := by omega
    have hc : s[pos]? = some s[pos] := List.getElem?_eq_getElem hlt
    by_cases hq : s[pos]? = some '"'
    · have hfind : find s ['"'] pos = some pos := find_here (by omega) (prefix_singleton_drop.2 hq)
      have hesc : (pos ≠ 0 ∧ (s[pos - 1]? = some '`' ∨ s[pos - 1]? = some '\\')) ↔ isQuote (prevChar s pos) '"' = false := by
        cases pos with
        | zero => simp [prevChar, isQuote]
        | succ k => simp [prevChar, isQuote]; grind
      have hst : stAt s (pos + 1) = (stAt s pos != isQuote (prevChar s pos) '"') := by
        simp [stAt, hq]
      have hrw := collectLoop_at name s fuel pos prev acc hfind
      rw [hrw]
      by_cases he : isQuote (prevChar s pos) '"' = false
      · simp only [if_pos (hesc.2 he)]
        rw [he] at hst
        apply ih fuel (pos + 1) prev acc (by omega) (by omega) (by rw [hst, h1]; simp)
          (fun q h => by have := h2 q h; omega) (fun p h => by have := h3 p h; omega) ?_ (by omega)
        intro i hi hiq
        have : i ≠ pos := by rintro rfl; exact hiq hq
        exact h4 i (by omega) hiq
      · simp only [if_neg (fun h => he (hesc.1 h))]
        simp at he
        rw [he] at hst
        cases prev with
        | none =>
          simp at h1
          simp only
          apply ih fuel (pos + 1) (some pos) acc (by omega) (by omega) (by simp [hst, ← h1])
            (fun q h => by simp at h; omega) (fun p h => by have := h3 p h; omega) ?_ (by omega)
          intro i hi hiq
          have : i ≠ pos := by rintro rfl; exact hiq hq
          have := h4 i (by omega) hiq
          rw [← this]
          simp
          intro _; omega
        | some q =>
          simp at h1
          simp only
          have hqpos := h2 q rfl
          apply ih fuel (pos + 1) none (acc ++ [(q, pos - q)]) (by omega) (by omega) (by simp [hst, ← h1])
            (by simp) (fun p h => by
              simp at h; rcases h with h | rfl
              · have := h3 p h; omega
              · simp; omega) ?_ (by omega)
          intro i hi hiq
          have : i ≠ pos := by rintro rfl; exact hiq hq
          have := h4 i (by omega) hiq
          rw [← this]
          simp only [inInts, List.mem_append, List.mem_singleton]
          constructor
          · rintro (⟨p, (hp | rfl), h5⟩ | ⟨_, h, _⟩)
            · exact .inl ⟨p, hp, h5⟩
            · exact .inr ⟨q, rfl, h5.1⟩
            · simp at h
          · rintro (⟨p, hp, h5⟩ | ⟨q', h, h5⟩)
            · exact .inl ⟨p, .inl hp, h5⟩
            · simp at h; subst h
              exact .inl ⟨_, .inr rfl, h5, by simp; omega⟩
    · have hskip : ¬ ['"'] <+: s.drop pos := by rw [prefix_singleton_drop]; exact hq
      have hrw : collectLoop name s (fuel + 1) pos prev acc = collectLoop name s (fuel + 1) (pos + 1) prev acc := by
        simp only [collectLoop, find_skip hskip]
      rw [hrw]
      have hst : stAt s (pos + 1) = stAt s pos := by
        have : (s[pos] == '"') = false := by
          rw [beq_eq_false_iff_ne]; intro h; rw [hc, h] at hq; exact hq rfl
        simp [stAt, hc, isQuote, this]
      apply ih (fuel + 1) (pos + 1) prev acc (by omega) (by omega) (by rw [hst, h1])
        (fun q h => by have := h2 q h; omega) (fun p h => by have := h3 p h; omega) ?_ (by omega)
      intro i hi hiq
      by_cases hip : i = pos
      · subst hip
        have hni : ¬ inInts acc i := by rintro ⟨p, hp, h5, h6⟩; have := h3 p hp; omega
        rw [← h1]
        simp only [hni, false_or]
        cases prev with
        | none => simp
        | some q => simp; have := h2 q rfl; omega
      · exact h4 i (by omega) hiq

/-- The collected intervals describe the scanner state; error iff a string is unterminated. -/
theorem collectStringIntervals_spec (name s : Str) :
    if endsInString false none s then
      collectStringIntervals name s =
        .error (.parse (c! "Unfinished string in definition of macro " ++ name ++ c! "."))
    else ∃ ints, collectStringIntervals name s = .ok ints ∧
      (∀ p ∈ ints, p.1 + p.2 ≤ s.length) ∧
      (∀ i < s.length, s[i]? ≠ some '"' → (inInts ints i ↔ stAt s i = true)) := by
  have h := endsInString_at s 0 (by omega)
  simp [stAt, prevChar] at h
  rw [h]
  exact collectLoop_spec name s (s.length + 1) 0 none [] (by omega) (by omega) rfl (by simp) (by simp) (by simp)

end Verif
