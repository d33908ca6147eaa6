import Verif.PpLexLemmas
import Verif.Spec.PpSource
/-!
# What the expressions of the lexer rules match
-/
namespace Verif.Pp
open Verif.Antlr Verif.Antlr.Re
open Verif.Spec.Pp (idFirst idNext blank isName noHead)

/-- The text does not start with such a character. -/
def NoHead (p : Char → Bool) (s : Str) : Prop := ∀ c, s.head? = some c → p c = false

theorem noHead_iff {p : Char → Bool} {s : Str} : noHead p s = true ↔ NoHead p s := by
  cases s <;> simp [noHead, NoHead]

theorem idNext_of_first {c : Char} (h : idFirst c = true) : idNext c = true := by
  simp [idFirst, idNext, Char.isAlphanum] at *
  tauto

theorem isName_all {s : Str} (h : isName s = true) : ∀ c ∈ s, idNext c = true := by
  cases s with
  | nil => simp
  | cons c s =>
    simp [isName] at h
    intro d hd
    simp at hd
    rcases hd with rfl | hd
    · exact idNext_of_first h.1
    · exact h.2 d hd

theorem isName_ne {s : Str} (h : isName s = true) : s ≠ [] := by rintro rfl; simp [isName] at h

theorem syms_append (s t : Str) : syms (s ++ t) = s.map some ++ syms t := by simp [syms]
theorem syms_cons (c : Char) (t : Str) : syms (c :: t) = some c :: syms t := by simp [syms]
theorem syms_nil : syms [] = [none] := rfl

/-- A loop stops in front of this text. -/
theorem longest_stop {r : Re} {s : Str} (hn : r.nullable = true) (he : r.der none = .empty)
    (hd : ∀ c, s.head? = some c → r.der (some c) = .empty) : longest r (syms s) = some 0 := by
  cases s with
  | nil => rw [syms_nil, longest_dead he, if_pos hn]
  | cons c s => rw [syms_cons, longest_dead (hd c rfl), if_pos hn]

/-- There is no match in front of this text. -/
theorem longest_no {r : Re} {s : Str} (hn : r.nullable = false) (he : r.der none = .empty)
    (hd : ∀ c, s.head? = some c → r.der (some c) = .empty) : longest r (syms s) = none := by
  cases s with
  | nil => rw [syms_nil, longest_dead he, hn]; rfl
  | cons c s => rw [syms_cons, longest_dead (hd c rfl), hn]; rfl

theorem isLower_eq (c : Char) : (decide ('a'.toNat ≤ c.toNat) && decide (c.toNat ≤ 'z'.toNat)) = c.isLower := by
  rw [Bool.eq_iff_iff]
  simp only [Char.isLower, Char.toNat, UInt32.le_iff_toNat_le, Bool.and_eq_true, decide_eq_true_eq, ge_iff_le]
theorem isUpper_eq (c : Char) : (decide ('A'.toNat ≤ c.toNat) && decide (c.toNat ≤ 'Z'.toNat)) = c.isUpper := by
  rw [Bool.eq_iff_iff]
  simp only [Char.isUpper, Char.toNat, UInt32.le_iff_toNat_le, Bool.and_eq_true, decide_eq_true_eq, ge_iff_le]
theorem isDigit_eq (c : Char) : (decide ('0'.toNat ≤ c.toNat) && decide (c.toNat ≤ '9'.toNat)) = c.isDigit := by
  rw [Bool.eq_iff_iff]
  simp only [Char.isDigit, Char.toNat, UInt32.le_iff_toNat_le, Bool.and_eq_true, decide_eq_true_eq, ge_iff_le]

theorem der_digit (c : Char) : F_DIGIT.der (some c) = one c.isDigit := by
  simp only [F_DIGIT, der, test]
  rw [← isDigit_eq]

theorem der_idFirst (c : Char) : ID_FIRST.der (some c) = one (idFirst c) := by
  simp only [ID_FIRST, LETTER, der, test, mkAlt_one]
  rw [isLower_eq, isUpper_eq]
  congr 1
  simp only [idFirst, Char.isAlpha]
  rw [Bool.or_comm c.isLower]
  congr 1
  by_cases h : c = '_' <;> simp [h]

theorem der_idNext (c : Char) : (alt ID_FIRST F_DIGIT).der (some c) = one (idNext c) := by
  rw [der, der_idFirst, der_digit, mkAlt_one]
  simp only [idFirst, idNext, Char.isAlphanum]
  congr 1
  cases c.isAlpha <;> cases c.isDigit <;> simp

theorem der_idNext_none : (alt ID_FIRST F_DIGIT).der none = .empty := by rfl

theorem der_star_class {r : Re} {p : Char → Bool} (h : ∀ c, r.der (some c) = one (p c)) (c : Char) :
    (star r).der (some c) = if p c then star r else .empty := by
  rw [der, h]
  cases p c
  · rw [mkSeq_one_false]; rfl
  · rw [mkSeq_one_true]; rfl

/-- A class in a loop. -/
theorem longest_star_class {r : Re} {p : Char → Bool} (h : ∀ c, r.der (some c) = one (p c)) (h0 : r.der none = .empty)
    {l t : Str} (hl : ∀ c ∈ l, p c = true) (ht : NoHead p t) : longest (star r) (syms (l ++ t)) = some l.length := by
  rw [syms_append, longest_loop (p := fun c => p c = true) (n := 0)]
  · simp
  · intro c hc; rw [der_star_class h, if_pos hc]
  · exact hl
  · refine longest_stop rfl (by rw [der, h0]; rfl) fun c hc => ?_
    rw [der_star_class h, ht c hc]; rfl

theorem longest_plus_class {r : Re} {p : Char → Bool} (h : ∀ c, r.der (some c) = one (p c)) (h0 : r.der none = .empty)
    (hr : r.nullable = false) {l t : Str} (hne : l ≠ []) (hl : ∀ c ∈ l, p c = true) (ht : NoHead p t) :
    longest (plus r) (syms (l ++ t)) = some l.length := by
  cases l with
  | nil => exact absurd rfl hne
  | cons c l =>
    have : (plus r).der (some c) = star r := by
      rw [plus, der, hr, if_neg (by simp), h, hl c (by simp), mkSeq_one_true]
    rw [List.cons_append, syms_cons, longest_step this (longest_star_class h h0 (fun d hd => hl d (by simp [hd])) ht)]
    simp

theorem plus_no {r : Re} {p : Char → Bool} (h : ∀ c, r.der (some c) = one (p c)) (h0 : r.der none = .empty)
    (hr : r.nullable = false) {t : Str} (ht : NoHead p t) : longest (plus r) (syms t) = none := by
  refine longest_no (by simp [plus, nullable, hr]) (by rw [plus, der, hr, h0]; rfl) fun c hc => ?_
  rw [plus, der, hr, if_neg (by simp), h, ht c hc, mkSeq_one_false]

theorem longest_id {n t : Str} (hn : isName n = true) (ht : NoHead idNext t) :
    longest F_ID (syms (n ++ t)) = some n.length := by
  cases n with
  | nil => simp [isName] at hn
  | cons c n =>
    simp [isName] at hn
    have : F_ID.der (some c) = star (alt ID_FIRST F_DIGIT) := by
      rw [F_ID, der, if_neg (by decide), der_idFirst, hn.1, mkSeq_one_true]
    rw [List.cons_append, syms_cons,
      longest_step this (longest_star_class der_idNext der_idNext_none (fun d hd => hn.2 d hd) ht)]
    simp

theorem id_no {t : Str} (ht : NoHead idFirst t) : longest F_ID (syms t) = none := by
  refine longest_no rfl rfl fun c hc => ?_
  rw [F_ID, der, if_neg (by decide), der_idFirst, ht c hc, mkSeq_one_false]

theorem der_ws (c : Char) : F_WS.der (some c) = one (blank c) := by
  simp only [F_WS, der, test, blank]
  congr 1
  by_cases h : c = ' ' <;> by_cases h' : c = '\t' <;> simp [h, h']

theorem longest_ws {l t : Str} (hne : l ≠ []) (hl : l.all blank = true) (ht : NoHead blank t) :
    longest (plus F_WS) (syms (l ++ t)) = some l.length :=
  longest_plus_class der_ws rfl rfl hne (by simpa using hl) ht

/-! ## literals -/

theorem der_set1 (x c : Char) : (set [x]).der (some c) = one (c == x) := by
  simp only [der, test]
  congr 1
  by_cases h : c = x <;> simp [h]

theorem longest_set1 {x : Char} (t : Str) : longest (set [x]) (syms (x :: t)) = some 1 := by
  have : (set [x]).der (some x) = .eps := by rw [der_set1]; simp [one]
  rw [syms_cons, longest_step this]
  cases t <;> simp [syms, longest, der, nullable, longest_empty]

theorem set1_no {x : Char} {t : Str} (h : NoHead (· == x) t) : longest (set [x]) (syms t) = none := by
  refine longest_no rfl rfl fun c hc => ?_
  have := h c hc
  beta_reduce at this
  rw [der_set1, this]; rfl

theorem matches_lit {s : Str} {w : List Sym} : Spec.Matches (lit s) w ↔ w = s.map some := by
  induction s generalizing w with
  | nil => simp [lit, matches_eps]
  | cons c s ih =>
    have h1 : ∀ v, Spec.Matches (set [c]) v ↔ v = [some c] := by
      intro v
      constructor
      · intro h; cases h with | set h => simp at h; subst h; rfl
      · rintro rfl; exact .set (by simp)
    cases s with
    | nil => rw [lit, h1]; rfl
    | cons d s =>
      rw [lit, matches_seq]
      · constructor
        · rintro ⟨u, v, rfl, hu, hv⟩
          rw [ih] at hv
          rw [h1] at hu
          subst hu hv
          rfl
        · rintro rfl
          exact ⟨[some c], _, rfl, (h1 _).2 rfl, ih.2 rfl⟩
      · simp

/-- A keyword rule on a text which starts with the keyword. -/
theorem longest_kw (k : Str) (r : Re) (t : List Sym) :
    longest (kw k r) (k.map some ++ t) = (longest r t).map (k.length + ·) := by
  have htake : ∀ n, (k.map some ++ t).take (k.length + n) = k.map some ++ t.take n := by
    intro n; rw [List.take_append]; simp
  have hkw : ∀ n, Spec.Matches (kw k r) ((k.map some ++ t).take (k.length + n)) ↔ Spec.Matches r (t.take n) := by
    intro n
    rw [htake, kw, matches_seq]
    constructor
    · rintro ⟨u, v, e, hu, hv⟩
      rw [matches_lit] at hu
      subst hu
      rw [List.append_cancel_left_eq] at e
      subst e
      exact hv
    · intro h; exact ⟨_, _, rfl, matches_lit.2 rfl, h⟩
  have hshort : ∀ n, n < k.length → ¬ Spec.Matches (kw k r) ((k.map some ++ t).take n) := by
    intro n hn h
    rw [kw, matches_seq] at h
    obtain ⟨u, v, e, hu, hv⟩ := h
    rw [matches_lit] at hu
    subst hu
    have := congrArg List.length e
    simp at this
    omega
  cases hl : longest r t with
  | none =>
    rw [longest_none_iff] at hl
    rw [Option.map_none, longest_none_iff]
    intro n
    rcases Nat.lt_or_ge n k.length with h | h
    · exact hshort n h
    · obtain ⟨m, rfl⟩ := Nat.exists_eq_add_of_le h
      rw [hkw]; exact hl m
  | some m =>
    rw [longest_some_iff] at hl
    rw [Option.map_some, longest_some_iff]
    refine ⟨by simp; omega, (hkw m).2 hl.2.1, fun j h1 h2 => ?_⟩
    obtain ⟨i, rfl⟩ := Nat.exists_eq_add_of_le (show k.length ≤ j by omega)
    rw [hkw]
    exact hl.2.2 i (by omega) (by simp at h2; omega)

/-- A keyword rule matches only a text that starts with the keyword. -/
theorem kw_prefix {k : Str} {r : Re} {t : Str} {n : Nat} (h : longest (kw k r) (syms t) = some n) :
    ∃ t', t = k ++ t' ∧ ∃ j, longest r (syms t') = some j ∧ n = k.length + j := by
  have hm := (longest_some_iff.1 h).2.1
  rw [kw, matches_seq] at hm
  obtain ⟨u, v, e, hu, _⟩ := hm
  rw [matches_lit] at hu
  subst hu
  have hp : k.map some <+: syms t := ⟨v ++ (syms t).drop n, by rw [← List.append_assoc, ← e, List.take_append_drop]⟩
  have hp' : k.map some <+: t.map some := by
    obtain ⟨w, hw⟩ := hp
    have hkt : k.length ≤ t.length := by
      by_contra hlt
      have h1 : (k.map some ++ w)[t.length]? = (syms t)[t.length]? := by rw [hw]
      rw [List.getElem?_append_left (by simp; omega)] at h1
      have h2 : (syms t)[t.length]? = some none := by
        rw [syms, List.getElem?_append_right (by simp)]; simp
      rw [h2, List.getElem?_map] at h1
      cases hk : k[t.length]? <;> simp [hk] at h1
    refine List.prefix_of_prefix_length_le (l₃ := syms t) ⟨w, hw⟩ ⟨[none], rfl⟩ (by simpa using hkt)
  obtain ⟨w, hw⟩ := hp'
  have ht : t = k ++ t.drop k.length := by
    have h1 := congrArg (List.map (fun o : Sym => o.getD 'x')) hw
    rw [List.map_append, List.map_map, List.map_map] at h1
    have h2 : ((fun o : Sym => o.getD 'x') ∘ some) = id := by funext c; rfl
    rw [h2, List.map_id, List.map_id] at h1
    rw [← h1]; simp
  refine ⟨t.drop k.length, ht, ?_⟩
  rw [ht, syms_append, longest_kw] at h
  cases hl : longest r (syms (t.drop k.length)) with
  | none => rw [hl] at h; simp at h
  | some j => rw [hl] at h; simp at h; exact ⟨j, rfl, h.symm⟩

/-! ## symbols which an expression does not distinguish -/

/-- All classes of the expression are lists of these characters. -/
def Re.uses : Re → Option (List Char)
  | .empty => some []
  | .eps => some []
  | .set l => some l
  | .non l => some l
  | .rng _ _ => none
  | .eof => some []
  | .seq a b => do return (← Re.uses a) ++ (← Re.uses b)
  | .alt a b => do return (← Re.uses a) ++ (← Re.uses b)
  | .star a => Re.uses a

theorem der_rep {r : Re} {l : List Char} (h : Re.uses r = some l) {c d : Char} (hc : c ∉ l) (hd : d ∉ l) :
    r.der (some c) = r.der (some d) := by
  induction r generalizing l with
  | empty => rfl
  | eps => rfl
  | set m =>
    simp only [Re.uses, Option.some.injEq] at h
    subst h
    simp [der, test, hc, hd]
  | non m =>
    simp only [Re.uses, Option.some.injEq] at h
    subst h
    simp [der, test, hc, hd]
  | rng lo hi => simp [Re.uses] at h
  | eof => rfl
  | seq a b iha ihb =>
    simp only [Re.uses, Option.pure_def, Option.bind_eq_bind, Option.bind_eq_some_iff, Option.some.injEq] at h
    obtain ⟨x, hx, y, hy, rfl⟩ := h
    rw [List.mem_append, not_or] at hc hd
    rw [der, der, iha hx hc.1 hd.1, ihb hy hc.2 hd.2]
  | alt a b iha ihb =>
    simp only [Re.uses, Option.pure_def, Option.bind_eq_bind, Option.bind_eq_some_iff, Option.some.injEq] at h
    obtain ⟨x, hx, y, hy, rfl⟩ := h
    rw [List.mem_append, not_or] at hc hd
    rw [der, der, iha hx hc.1 hd.1, ihb hy hc.2 hd.2]
  | star a ih =>
    rw [der, der, ih h hc hd]

/-- Derivative by a text. -/
def ders : Re → Str → Re
  | r, [] => r
  | r, c :: s => ders (r.der (some c)) s

theorem longest_ders {r r' : Re} {p : Str} {s : List Sym} {n : Nat} (h : ders r p = r') (hs : longest r' s = some n) :
    longest r (p.map some ++ s) = some (p.length + n) := by
  induction p generalizing r with
  | nil => rw [ders] at h; subst h; simpa using hs
  | cons c p ih =>
    rw [ders] at h
    rw [List.map_cons, List.cons_append, longest_step rfl (ih h)]
    simp; omega

/-- No prefix of the text is a match, and what is left has no match. -/
theorem longest_ders_none {r r' : Re} {p : Str} {s : List Sym} (h : ders r p = r')
    (hn : ∀ q, q <+: p → q ≠ p → (ders r q).nullable = false) (hs : longest r' s = none) :
    longest r (p.map some ++ s) = none := by
  induction p generalizing r with
  | nil => rw [ders] at h; subst h; simpa using hs
  | cons c p ih =>
    rw [ders] at h
    have h0 := hn [] (by simp) (by simp)
    rw [ders] at h0
    rw [List.map_cons, List.cons_append,
      longest_step_none rfl (ih h fun q hq hne => by simpa [ders] using hn (c :: q) (by simpa using hq) (by simpa using hne)), h0]
    rfl

theorem longest_eps (s : Str) : longest .eps (syms s) = some 0 := longest_stop rfl rfl (fun _ _ => rfl)

end Verif.Pp
