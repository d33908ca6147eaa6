import Verif.Spec.Regex
import Mathlib.Tactic.Common
/-!
# Lemmas about the matching algorithm
-/
namespace Verif.Antlr
open Verif.Spec

namespace Re

theorem matches_empty {s : List Sym} : ¬ Matches .empty s := by intro h; cases h

theorem matches_eps {s : List Sym} : Matches .eps s ↔ s = [] :=
  ⟨fun h => by cases h; rfl, fun h => h ▸ .eps⟩

theorem matches_seq {a b : Re} {s : List Sym} :
    Matches (.seq a b) s ↔ ∃ u v, s = u ++ v ∧ Matches a u ∧ Matches b v :=
  ⟨fun h => by cases h with | seq ha hb => exact ⟨_, _, rfl, ha, hb⟩, fun ⟨_, _, e, ha, hb⟩ => e ▸ .seq ha hb⟩

theorem matches_alt {a b : Re} {s : List Sym} : Matches (.alt a b) s ↔ Matches a s ∨ Matches b s :=
  ⟨fun h => by cases h with | altL h => exact .inl h | altR h => exact .inr h,
    fun h => h.elim .altL .altR⟩

theorem matches_mkSeq {a b : Re} {s : List Sym} : Matches (mkSeq a b) s ↔ Matches (.seq a b) s := by
  have gen : Matches (if b = .empty then .empty else .seq a b) s ↔ Matches (.seq a b) s := by
    split
    · rename_i h
      subst h
      constructor
      · intro h; cases h
      · intro h; cases h with | seq _ hb => cases hb
    · rfl
  cases a
  case empty =>
    constructor
    · intro h; cases h
    · intro h; cases h with | seq ha _ => cases ha
  case eps => rw [mkSeq, matches_seq]; simp [matches_eps]
  all_goals exact gen

theorem matches_mkAlt {a b : Re} {s : List Sym} : Matches (mkAlt a b) s ↔ Matches (.alt a b) s := by
  have gen : Matches (if b = .empty then a else if a = b then a else .alt a b) s ↔ Matches (.alt a b) s := by
    split
    · rename_i h; subst h; rw [matches_alt]; simp [matches_empty]
    · split
      · rename_i h; subst h; rw [matches_alt]; simp
      · rfl
  cases a
  case empty => rw [mkAlt, matches_alt]; simp [matches_empty]
  all_goals exact gen

theorem matches_one {b : Bool} {s : List Sym} : Matches (one b) s ↔ b = true ∧ s = [] := by
  cases b <;> simp [one, matches_eps, matches_empty]

theorem nullable_iff {r : Re} : r.nullable = true ↔ Matches r [] := by
  induction r with
  | empty => simp [nullable, matches_empty]
  | eps => simp [nullable, matches_eps]
  | set l => simp only [nullable, Bool.false_eq_true, false_iff]; intro h; cases h
  | non l => simp only [nullable, Bool.false_eq_true, false_iff]; intro h; cases h
  | rng l h => simp only [nullable, Bool.false_eq_true, false_iff]; intro h; cases h
  | eof => simp only [nullable, Bool.false_eq_true, false_iff]; intro h; cases h
  | seq a b ha hb => rw [nullable, matches_seq, Bool.and_eq_true, ha, hb]; simp
  | alt a b ha hb => rw [nullable, matches_alt, Bool.or_eq_true, ha, hb]
  | star a _ => simp [nullable, Matches.star0]

/-- A star consumes a first symbol in a non-empty round. -/
theorem matches_star_cons {a : Re} {c : Sym} {s : List Sym} :
    Matches (.star a) (c :: s) ↔ ∃ u v, s = u ++ v ∧ Matches a (c :: u) ∧ Matches (.star a) v := by
  constructor
  · intro h
    generalize hr : Re.star a = r at h
    generalize hw : c :: s = w at h
    induction h generalizing s with
    | star ha hs _ ih2 =>
      rename_i a' u v _
      cases hr
      cases u with
      | nil => simp at hw; exact ih2 rfl hw
      | cons d u =>
        simp at hw
        obtain ⟨rfl, rfl⟩ := hw
        exact ⟨u, v, rfl, ha, hs⟩
    | star0 => simp at hw
    | _ => cases hr
  · rintro ⟨u, v, rfl, ha, hs⟩
    exact Matches.star (s := c :: u) ha hs

theorem matches_der {r : Re} {c : Sym} {s : List Sym} : Matches (r.der c) s ↔ Matches r (c :: s) := by
  induction r generalizing s with
  | empty => simp [der, matches_empty]
  | eps => simp [der, matches_empty, matches_eps]
  | set l =>
    rw [der, matches_one]
    constructor
    · rintro ⟨h, rfl⟩
      cases c with
      | none => simp [test] at h
      | some x => exact .set (by simpa [test] using h)
    · intro h; cases h with | set h => simpa [test] using h
  | non l =>
    rw [der, matches_one]
    constructor
    · rintro ⟨h, rfl⟩
      cases c with
      | none => simp [test] at h
      | some x => exact .non (by simpa [test] using h)
    · intro h; cases h with | non h => simpa [test] using h
  | rng lo hi =>
    rw [der, matches_one]
    constructor
    · rintro ⟨h, rfl⟩
      cases c with
      | none => simp [test] at h
      | some x => simp [test] at h; exact .rng h.1 h.2
    · intro h; cases h with | rng h h' => simpa [test] using ⟨h, h'⟩
  | eof =>
    rw [der, matches_one]
    constructor
    · rintro ⟨h, rfl⟩
      cases c with
      | none => exact .eof
      | some x => simp at h
    · intro h; cases h with | eof => simp
  | seq a b ha hb =>
    have left : Matches (mkSeq (a.der c) b) s ↔ ∃ u v, s = u ++ v ∧ Matches a (c :: u) ∧ Matches b v := by
      rw [matches_mkSeq, matches_seq]
      constructor
      · rintro ⟨u, v, e, h1, h2⟩; exact ⟨u, v, e, ha.1 h1, h2⟩
      · rintro ⟨u, v, e, h1, h2⟩; exact ⟨u, v, e, ha.2 h1, h2⟩
    rw [der, matches_seq]
    split
    · rename_i hn
      rw [matches_mkAlt, matches_alt, left, hb]
      constructor
      · rintro (⟨u, v, rfl, h1, h2⟩ | h)
        · exact ⟨c :: u, v, rfl, h1, h2⟩
        · exact ⟨[], c :: s, rfl, nullable_iff.1 hn, h⟩
      · rintro ⟨u, v, e, h1, h2⟩
        cases u with
        | nil => simp at e; subst e; exact .inr h2
        | cons d u => simp at e; obtain ⟨rfl, rfl⟩ := e; exact .inl ⟨u, v, rfl, h1, h2⟩
    · rename_i hn
      rw [left]
      constructor
      · rintro ⟨u, v, rfl, h1, h2⟩; exact ⟨c :: u, v, rfl, h1, h2⟩
      · rintro ⟨u, v, e, h1, h2⟩
        cases u with
        | nil => exact absurd (nullable_iff.2 h1) hn
        | cons d u => simp at e; obtain ⟨rfl, rfl⟩ := e; exact ⟨u, v, rfl, h1, h2⟩
  | alt a b ha hb => rw [der, matches_mkAlt, matches_alt, matches_alt, ha, hb]
  | star a ha =>
    rw [der, matches_mkSeq, matches_seq, matches_star_cons]
    constructor
    · rintro ⟨u, v, e, h1, h2⟩; exact ⟨u, v, e, ha.1 h1, h2⟩
    · rintro ⟨u, v, e, h1, h2⟩; exact ⟨u, v, e, ha.2 h1, h2⟩

theorem longest_empty (s : List Sym) : longest .empty s = none := by
  cases s <;> simp [longest, nullable]

theorem longest_none_iff {r : Re} {s : List Sym} : longest r s = none ↔ ∀ n, ¬ Matches r (s.take n) := by
  induction s generalizing r with
  | nil =>
    simp only [longest, List.take_nil, forall_const, ← nullable_iff]
    split <;> simp_all
  | cons c s ih =>
    rw [longest]
    split
    · rename_i h; subst h; simp [matches_empty]
    · have key : (∀ n, ¬ Matches r ((c :: s).take n)) ↔ ¬ Matches r [] ∧ ∀ n, ¬ Matches (r.der c) (s.take n) := by
        constructor
        · intro h
          refine ⟨by simpa using h 0, fun n => ?_⟩
          rw [matches_der]
          simpa using h (n + 1)
        · rintro ⟨h0, h⟩ n
          cases n with
          | zero => simpa using h0
          | succ n => simpa [matches_der] using h n
      rw [key, ← ih]
      cases hl : longest (r.der c) s with
      | some n => simp
      | none =>
        simp only [and_true, ← nullable_iff]
        split <;> simp_all

theorem longest_some_iff {r : Re} {s : List Sym} {n : Nat} :
    longest r s = some n ↔ n ≤ s.length ∧ Matches r (s.take n) ∧ ∀ m, n < m → m ≤ s.length → ¬ Matches r (s.take m) := by
  induction s generalizing r n with
  | nil =>
    simp only [longest, List.take_nil, List.length_nil, ← nullable_iff]
    constructor
    · intro h
      split at h
      · simp at h; subst h; exact ⟨le_rfl, by assumption, fun m h1 h2 => by omega⟩
      · simp at h
    · rintro ⟨h1, h2, -⟩
      rw [if_pos h2]
      congr 1; omega
  | cons c s ih =>
    rw [longest]
    split
    · rename_i h; subst h; simp [matches_empty]
    · cases hl : longest (r.der c) s with
      | some k =>
        have hk := ih.1 hl
        simp only [Option.some.injEq, List.length_cons]
        constructor
        · rintro rfl
          refine ⟨by omega, ?_, fun m h1 h2 => ?_⟩
          · simpa [matches_der] using hk.2.1
          · cases m with
            | zero => omega
            | succ m => simpa [matches_der] using hk.2.2 m (by omega) (by omega)
        · rintro ⟨h1, h2, h3⟩
          by_contra hne
          rcases Nat.lt_or_ge n (k + 1) with h | h
          · exact h3 (k + 1) h (by omega) (by simpa [matches_der] using hk.2.1)
          · cases n with
            | zero => omega
            | succ n => exact hk.2.2 n (by omega) (by omega) (by simpa [matches_der] using h2)
      | none =>
        have hk := longest_none_iff.1 hl
        have hno : ∀ m, ¬ Matches r ((c :: s).take (m + 1)) := fun m => by simpa [matches_der] using hk m
        simp only
        constructor
        · intro h
          split at h
          · rename_i hn
            simp at h
            subst h
            refine ⟨by omega, by simpa using nullable_iff.1 hn, fun m h1 _ => ?_⟩
            obtain ⟨m, rfl⟩ := Nat.exists_eq_succ_of_ne_zero (by omega : m ≠ 0)
            exact hno m
          · simp at h
        · rintro ⟨_, h2, _⟩
          cases n with
          | zero => rw [if_pos (nullable_iff.2 (by simpa using h2))]
          | succ n => exact absurd h2 (hno n)

/-- One step of the matching. -/
theorem longest_cons (r : Re) (c : Sym) (s : List Sym) :
    longest r (c :: s) = match longest (r.der c) s with
      | some n => some (n + 1)
      | none => if r.nullable then some 0 else none := by
  rw [longest]
  split
  · rename_i h; subst h; simp [der, longest_empty, nullable]
  · rfl

/-- The first symbol cannot start a match. -/
theorem longest_dead {r : Re} {c : Sym} {s : List Sym} (h : r.der c = .empty) :
    longest r (c :: s) = if r.nullable then some 0 else none := by
  rw [longest_cons, h, longest_empty]

/-- The first symbol leads to an expression that always has a match. -/
theorem longest_step {r r' : Re} {c : Sym} {s : List Sym} {n : Nat} (h : r.der c = r') (h' : longest r' s = some n) :
    longest r (c :: s) = some (n + 1) := by
  rw [longest_cons, h, h']

theorem longest_step_none {r r' : Re} {c : Sym} {s : List Sym} (h : r.der c = r') (h' : longest r' s = none) :
    longest r (c :: s) = if r.nullable then some 0 else none := by
  rw [longest_cons, h, h']

/-- A loop: as long as the symbols lead back to the same expression. -/
theorem longest_loop {r : Re} {p : Char → Prop} (h : ∀ c, p c → r.der (some c) = r) {l : Str} (hl : ∀ c ∈ l, p c)
    {s : List Sym} {n : Nat} (hs : longest r s = some n) : longest r (l.map some ++ s) = some (l.length + n) := by
  induction l with
  | nil => simpa using hs
  | cons c l ih =>
    rw [List.map_cons, List.cons_append,
      longest_step (h c (hl c (by simp))) (ih fun d hd => hl d (by simp [hd]))]
    simp; omega

theorem longest_loop_none {r : Re} {p : Char → Prop} (h : ∀ c, p c → r.der (some c) = r) {l : Str} (hl : ∀ c ∈ l, p c)
    {s : List Sym} (hn : r.nullable = false) (hs : longest r s = none) : longest r (l.map some ++ s) = none := by
  induction l with
  | nil => simpa using hs
  | cons c l ih =>
    rw [List.map_cons, List.cons_append,
      longest_step_none (h c (hl c (by simp))) (ih fun d hd => hl d (by simp [hd])), hn]
    simp

theorem mkAlt_one (a b : Bool) : mkAlt (one a) (one b) = one (a || b) := by cases a <;> cases b <;> rfl
theorem mkSeq_one_true (r : Re) : mkSeq (one true) r = r := by cases r <;> rfl
theorem mkSeq_one_false (r : Re) : mkSeq (one false) r = .empty := by cases r <;> rfl

end Re

theorem pick_some {α : Type} {re : α → Re} {l : List α} {s : List Sym} {r : α} {n : Nat}
    (h : pick re l s = some (r, n)) : r ∈ l ∧ (re r).longest s = some n := by
  induction l with
  | nil => simp [pick] at h
  | cons q l ih =>
    rw [pick] at h
    split at h
    · obtain ⟨h1, h2⟩ := ih h; exact ⟨by simp [h1], h2⟩
    · simp at h; obtain ⟨rfl, rfl⟩ := h; exact ⟨by simp, by assumption⟩
    · rename_i k q' k' hq hp
      split at h
      · simp at h
        obtain ⟨rfl, rfl⟩ := h
        obtain ⟨h1, h2⟩ := ih hp; exact ⟨by simp [h1], h2⟩
      · simp at h; obtain ⟨rfl, rfl⟩ := h; exact ⟨by simp, by assumption⟩

end Verif.Antlr
