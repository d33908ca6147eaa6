import Mathlib.Data.List.Infix
import Mathlib.Data.Nat.Find
/-!
# Model of the parts of `std::string` that the code uses

A `std::string` is a list of characters, one `Char` per byte. `std::string::npos` is `none`.
-/
namespace Verif

/-- `std::string`; one `Char` per byte. Theorems quantify over all `Char`s, a superset of the bytes. -/
abbrev Str := List Char

open Lean in
/-- `c! "abc"` is the character list `['a', 'b', 'c']` (plain list syntax, so it reduces well). -/
macro "c! " s:str : term => do
  let mut r ← `(([] : Str))
  for c in s.getString.toList.reverse do
    r ← `(List.cons $(⟨Syntax.mkCharLit c⟩) $r)
  return r

/-- Index of the first occurrence of `needle` in the string (`std::string::find(needle)`). -/
def findIdx (needle : Str) : Str → Option Nat
  | [] => if needle = [] then some 0 else none
  | c :: cs => if needle.isPrefixOf (c :: cs) then some 0 else (findIdx needle cs).map (· + 1)

/-- `s.find(needle, pos)` of `std::string`: smallest `i ≥ pos` where `needle` occurs, `none` is `npos`.
If `pos` is behind the end the result is `npos`. -/
def find (s needle : Str) (pos : Nat) : Option Nat :=
  if pos ≤ s.length then (findIdx needle (s.drop pos)).map (· + pos) else none

/-- `s[i]` of a `std::string` (C++11: `s[s.size()]` is `'\0'`, beyond it is undefined: `none`). -/
def charAt (s : Str) (i : Nat) : Option Char :=
  if i = s.length then some '\x00' else s[i]?

/-- `s.substr(pos, n)`; throws `std::out_of_range` (here `none`) iff `pos > s.size()`. -/
def substr (s : Str) (pos : Nat) (n : Option Nat := none) : Option Str :=
  if pos ≤ s.length then
    some (match n with | none => s.drop pos | some k => (s.drop pos).take k)
  else none

/-- `s.replace(pos, n, r)` for `pos ≤ s.size()`. -/
def replaceAt (s : Str) (pos n : Nat) (r : Str) : Str := s.take pos ++ r ++ s.drop (pos + n)

/-- Outcomes of C++ code other than normal completion. `parse` is `ParseException`, `runtime` is
`std::runtime_error` (and other `std::exception`s), `outOfRange` is `std::out_of_range` from `.at()`/`substr`,
`invalidArg` is `std::invalid_argument`, `ub` is undefined behaviour, `fuel` is "the model ran out of fuel"
(non-termination of the C++ loop, if it happens for every amount of fuel). -/
inductive Exc
  | parse (msg : Str)
  | runtime (msg : Str)
  | outOfRange
  | invalidArg
  | ub
  | fuel
deriving DecidableEq, Repr

deriving instance DecidableEq for Except

theorem findIdx_some {needle s : Str} {i : Nat} :
    findIdx needle s = some i ↔
      (i ≤ s.length ∧ needle <+: s.drop i ∧ ∀ j < i, ¬ needle <+: s.drop j) := by
  induction s generalizing i with
  | nil =>
    simp only [findIdx, List.length_nil, Nat.le_zero_eq, List.drop_nil, List.prefix_nil]
    split
    · rename_i h; simp only [Option.some.injEq, h, not_true_eq_false, true_and]
      constructor
      · rintro rfl; simp
      · rintro ⟨rfl, -⟩; rfl
    · rename_i h; simp [h]
  | cons c cs ih =>
    simp only [findIdx, List.isPrefixOf_iff_prefix]
    split
    · rename_i h
      simp only [Option.some.injEq]
      constructor
      · rintro rfl; simp [h]
      · rintro ⟨-, -, h3⟩
        by_contra hne
        exact h3 0 (by omega) (by simpa using h)
    · rename_i h
      simp only [Option.map_eq_some_iff]
      constructor
      · rintro ⟨k, hk, rfl⟩
        obtain ⟨h1, h2, h3⟩ := ih.1 hk
        refine ⟨by simp; omega, by simpa using h2, ?_⟩
        intro j hj
        cases j with
        | zero => simpa using h
        | succ j => simpa using h3 j (by omega)
      · rintro ⟨h1, h2, h3⟩
        cases i with
        | zero => exact absurd (by simpa using h2) h
        | succ i =>
          refine ⟨i, ih.2 ⟨by simpa using h1, by simpa using h2, ?_⟩, rfl⟩
          intro j hj
          simpa using h3 (j+1) (by omega)

theorem findIdx_none {needle s : Str} :
    findIdx needle s = none ↔ ∀ j ≤ s.length, ¬ needle <+: s.drop j := by
  constructor
  · intro h j hj hp
    classical
    have hex : ∃ j, j ≤ s.length ∧ needle <+: s.drop j := ⟨j, hj, hp⟩
    have := Nat.find_spec hex
    have hmin := @Nat.find_min _ _ hex
    have : findIdx needle s = some (Nat.find hex) := by
      rw [findIdx_some]
      refine ⟨this.1, this.2, fun k hk hc => hmin hk ⟨?_, hc⟩⟩
      omega
    simp [h] at this
  · intro h
    cases hf : findIdx needle s with
    | none => rfl
    | some i => exact absurd (findIdx_some.1 hf).2.1 (h i (findIdx_some.1 hf).1)

theorem find_some {s needle : Str} {pos i : Nat} :
    find s needle pos = some i ↔
      (pos ≤ i ∧ i ≤ s.length ∧ needle <+: s.drop i ∧
        ∀ j, pos ≤ j → j < i → ¬ needle <+: s.drop j) := by
  unfold find
  split
  · rename_i hp
    simp only [Option.map_eq_some_iff, findIdx_some, List.length_drop, List.drop_drop]
    constructor
    · rintro ⟨k, ⟨h1, h2, h3⟩, rfl⟩
      refine ⟨by omega, by omega, by rwa [Nat.add_comm], fun j hj1 hj2 => ?_⟩
      have := h3 (j - pos) (by omega)
      rwa [Nat.add_sub_cancel' hj1] at this
    · rintro ⟨h1, h2, h3, h4⟩
      refine ⟨i - pos, ⟨by omega, by rwa [Nat.add_sub_cancel' h1], fun j hj => ?_⟩, by omega⟩
      exact h4 _ (by omega) (by omega)
  · rename_i hp
    simp; omega

theorem find_none {s needle : Str} {pos : Nat} :
    find s needle pos = none ↔ ∀ j, pos ≤ j → j ≤ s.length → ¬ needle <+: s.drop j := by
  unfold find
  split
  · rename_i hp
    simp only [Option.map_eq_none_iff, findIdx_none, List.length_drop, List.drop_drop]
    constructor
    · intro h j h1 h2
      have := h (j - pos) (by omega)
      rwa [Nat.add_sub_cancel' h1] at this
    · intro h j hj
      exact h _ (by omega) (by omega)
  · rename_i hp
    simp; omega

theorem find_here {s needle : Str} {pos : Nat} (hp : pos ≤ s.length) (h : needle <+: s.drop pos) :
    find s needle pos = some pos := by
  rw [find_some]; exact ⟨le_refl _, hp, h, fun j h1 h2 => by omega⟩

theorem find_skip {s needle : Str} {pos : Nat} (h : ¬ needle <+: s.drop pos) :
    find s needle pos = find s needle (pos + 1) := by
  cases hf : find s needle (pos + 1) with
  | none =>
    rw [find_none] at hf ⊢
    intro j h1 h2
    rcases Nat.eq_or_lt_of_le h1 with rfl | h3
    · exact h
    · exact hf j h3 h2
  | some i =>
    rw [find_some] at hf ⊢
    refine ⟨by omega, hf.2.1, hf.2.2.1, fun j h1 h2 => ?_⟩
    rcases Nat.eq_or_lt_of_le h1 with rfl | h3
    · exact h
    · exact hf.2.2.2 j h3 h2

/-- Finding a single character. -/
theorem prefix_singleton_drop {c : Char} {s : Str} {i : Nat} : [c] <+: s.drop i ↔ s[i]? = some c := by
  constructor
  · rintro ⟨t, ht⟩
    have : (s.drop i)[0]? = some c := by rw [← ht]; rfl
    simpa using this
  · intro h
    have hi : i < s.length := by
      by_contra hc; rw [List.getElem?_eq_none (by omega)] at h; simp at h
    rw [List.drop_eq_getElem_cons hi]
    rw [List.getElem?_eq_getElem hi] at h
    simp only [Option.some.injEq] at h
    exact ⟨_, by rw [h]; rfl⟩

end Verif
