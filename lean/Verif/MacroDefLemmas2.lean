import Verif.MacroDefLemmas
import Mathlib.Data.List.Range
/-! Helper lemmas about `MacroDef`, part 2: usages, cutting, joining. -/
namespace Verif
open Verif.Spec

/-! ## usages of one parameter -/

/-- Is position `i` a usage according to the code? -/
def Occ (body : Str) (ints : List (Nat × Nat)) (name : Str) (i : Nat) : Bool :=
  name.isPrefixOf (body.drop i) && !((prevChar body i).any isWordPre) &&
    !((charAt body (i + name.length)).any isWordPost) && (checkIsInString ints i).isNone

theorem prefix_len {name body : Str} {i : Nat} (hi : i ≤ body.length) (h : name <+: body.drop i) :
    i + name.length ≤ body.length := by
  have := h.length_le
  simp at this; omega

theorem charAt_isSome {s : Str} {i : Nat} (h : i ≤ s.length) : ∃ c, charAt s i = some c := by
  unfold charAt
  split
  · exact ⟨_, rfl⟩
  · exact ⟨s[i]'(by omega), List.getElem?_eq_getElem _⟩

theorem range'_filter_skip {p : Nat → Bool} {a b L : Nat} (hab : a ≤ b) (hb : b ≤ L)
    (h : ∀ j, a ≤ j → j < b → p j = false) :
    (List.range' a (L - a)).filter p = (List.range' b (L - b)).filter p := by
  have : L - a = (b - a) + (L - b) := by omega
  rw [this, ← List.range'_append_1, List.filter_append]
  have e : a + (b - a) = b := by omega
  rw [e]
  have : (List.range' a (b - a)).filter p = [] := by
    rw [List.filter_eq_nil_iff]
    intro j hj
    rw [List.mem_range'_1] at hj
    simp [h j hj.1 (by omega)]
  rw [this]; rfl

theorem usageLoop_spec (body : Str) (ints : List (Nat × Nat)) (name : Str) (fuel pos : Nat) (acc : List Nat)
    (hints : ∀ p ∈ ints, p.1 + p.2 ≤ body.length) (hf : body.length + 1 - pos < fuel) (hpos : pos ≤ body.length + 1) :
    usageLoop body ints name fuel pos acc =
      .ok (acc ++ (List.range' pos (body.length + 1 - pos)).filter (Occ body ints name)) := by
  induction fuel generalizing pos acc with
  | zero => omega
  | succ fuel ih =>
    rw [usageLoop]
    cases hfind : find body name pos with
    | none =>
      rw [find_none] at hfind
      have : (List.range' pos (body.length + 1 - pos)).filter (Occ body ints name) = [] := by
        rw [List.filter_eq_nil_iff]
        intro j hj
        rw [List.mem_range'_1] at hj
        have := hfind j hj.1 (by omega)
        rw [← List.isPrefixOf_iff_prefix] at this
        simp at this
        simp [Occ, this]
      simp [this]
    | some p =>
      rw [find_some] at hfind
      obtain ⟨h1, h2, h3, h4⟩ := hfind
      have hsk : (List.range' pos (body.length + 1 - pos)).filter (Occ body ints name)
          = (List.range' p (body.length + 1 - p)).filter (Occ body ints name) := by
        apply range'_filter_skip h1 (by omega)
        intro j hj1 hj2
        have := h4 j hj1 hj2
        rw [← List.isPrefixOf_iff_prefix] at this
        simp at this
        simp [Occ, this]
      have hpre : preBad body p = (prevChar body p).any isWordPre := by
        cases p with
        | zero => rfl
        | succ k => simp only [prevChar, preBad]; simp; cases body[k]? <;> rfl
      have hone : ∀ (q : Nat), p < q → q ≤ body.length + 1 → (∀ j, p ≤ j → j < q → Occ body ints name j = false) →
          (List.range' p (body.length + 1 - p)).filter (Occ body ints name)
            = (List.range' q (body.length + 1 - q)).filter (Occ body ints name) :=
        fun q hq1 hq2 hq3 => range'_filter_skip (by omega) hq2 hq3
      have hpf : name.isPrefixOf (body.drop p) = true := List.isPrefixOf_iff_prefix.2 h3
      obtain ⟨cp, hcp⟩ := charAt_isSome (prefix_len h2 h3)
      rw [hsk]
      simp only [hpre, hcp]
      by_cases hb : (prevChar body p).any isWordPre = true
      · rw [if_pos hb, ih (p + 1) acc (by omega) (by omega),
          hone (p + 1) (by omega) (by omega) (fun j a b => by
            have : j = p := by omega
            subst this; simp [Occ, hb])]
      · rw [if_neg hb]
        by_cases hw : isWordPost cp = true
        · rw [if_pos hw, ih (p + 1) acc (by omega) (by omega),
            hone (p + 1) (by omega) (by omega) (fun j a b => by
              have : j = p := by omega
              subst this; simp [Occ, hcp, hw])]
        · rw [if_neg hw]
          cases hin : checkIsInString ints p with
          | some s =>
            obtain ⟨hs1, hs2, hs3⟩ := checkIsInString_some hin
            have hle := hints s hs1
            simp only
            rw [ih (s.1 + s.2) acc (by omega) (by omega),
              hone (s.1 + s.2) (by omega) (by omega) (fun j a b => by
                have : ¬ checkIsInString ints j = none := by
                  rw [checkIsInString_none]
                  simp only [not_not]
                  exact ⟨s, hs1, by omega, by omega⟩
                cases hj : checkIsInString ints j with
                | none => exact absurd hj this
                | some _ => simp [Occ, hj])]
          | none =>
            simp only
            rw [ih (p + 1) (acc ++ [p]) (by omega) (by omega)]
            have hocc : Occ body ints name p = true := by
              simp at hb hw
              simp [Occ, hpf, hcp, hw, hin]
              simpa using hb
            have : body.length + 1 - p = (body.length + 1 - (p + 1)) + 1 := by omega
            rw [this, List.range'_succ, List.filter_cons_of_pos hocc]
            simp

/-! ## usages of all parameters -/

theorem allUsages_spec (body : Str) (ints : List (Nat × Nat)) (hints : ∀ p ∈ ints, p.1 + p.2 ≤ body.length)
    (i : Nat) (ps : List Param) :
    ∃ us, allUsages body ints i ps = .ok us ∧ us.Nodup ∧
      (∀ j k, (j, k) ∈ us ↔ i ≤ k ∧ ∃ p, ps[k - i]? = some p ∧ j ≤ body.length ∧ Occ body ints p.name j = true) := by
  induction ps generalizing i with
  | nil => exact ⟨[], rfl, by simp, by simp⟩
  | cons p ps ih =>
    obtain ⟨r, hr1, hr2, hr3⟩ := ih (i + 1)
    have hu := usageLoop_spec body ints p.name (body.length + 2) 0 [] hints (by omega) (by omega)
    simp only [List.nil_append, Nat.sub_zero] at hu
    refine ⟨((List.range' 0 (body.length + 1)).filter (Occ body ints p.name)).map (fun x => (x, i)) ++ r, ?_, ?_, ?_⟩
    · rw [allUsages, hu]
      simp only [bind, Except.bind, hr1, pure, Except.pure]
    · rw [List.nodup_append]
      refine ⟨?_, hr2, ?_⟩
      · apply List.Nodup.map
        · intro a b h; simpa using h
        · exact (List.nodup_range').filter _
      · rintro ⟨a, b⟩ h1 ⟨c, d⟩ h2 h3
        simp at h1
        have := (hr3 c d).1 h2
        simp at h3
        omega
    · intro j k
      rw [List.mem_append, hr3]
      simp only [List.mem_map, List.mem_filter, List.mem_range'_1, Prod.mk.injEq]
      constructor
      · rintro (⟨x, ⟨hx1, hx2⟩, rfl, rfl⟩ | ⟨h1, q, h2, h3, h4⟩)
        · exact ⟨by omega, p, by simp, by omega, hx2⟩
        · refine ⟨by omega, q, ?_, h3, h4⟩
          have : k - i = (k - (i + 1)) + 1 := by omega
          rw [this]; simpa using h2
      · rintro ⟨h1, q, h2, h3, h4⟩
        by_cases hk : k = i
        · subst hk
          simp at h2; subst h2
          exact .inl ⟨j, ⟨⟨by omega, by omega⟩, h4⟩, rfl, rfl⟩
        · right
          have : k - i = (k - (i + 1)) + 1 := by omega
          rw [this] at h2
          exact ⟨by omega, q, by simpa using h2, h3, h4⟩

/-! ## from usages to the specification -/

/-- Facts about names that make usages non-overlapping. -/
def GoodNames (ps : List Param) : Prop :=
  (∀ p ∈ ps, IsIdent p.name) ∧ (ps.map Param.name).Nodup

theorem charAt_any (body : Str) (i : Nat) : (charAt body i).any isWordPost = (body.drop i).head?.any stopCode := by
  unfold charAt
  split
  · rename_i h; subst h; simp; decide
  · rw [List.head?_drop]
    cases body[i]? with
    | none => rfl
    | some c => simp [isWordPost_eq]

theorem isIdChar_not_quote {c : Char} (h : isIdChar c = true) : c ≠ '"' := by
  rintro rfl; revert h; decide

/-- usage according to the code = free-standing occurrence according to the specification -/
theorem Occ_eq_formalHere {body : Str} {ints : List (Nat × Nat)} {name : Str}
    (hn : IsIdent name) (hst : ∀ i < body.length, body[i]? ≠ some '"' → (inInts ints i ↔ stAt body i = true))
    (i : Nat) : Occ body ints name i = formalHere stopCode (stAt body i) (prevChar body i) (body.drop i) name := by
  unfold Occ formalHere
  rw [charAt_any, List.drop_drop]
  have hpre : (prevChar body i).any isWordPre = (prevChar body i).any isIdChar := by
    congr 1; funext c; exact isWordPre_eq c
  rw [hpre]
  by_cases hp : name.isPrefixOf (body.drop i) = true
  · have hin : (checkIsInString ints i).isNone = !stAt body i := by
      obtain ⟨t, ht⟩ := List.isPrefixOf_iff_prefix.1 hp
      obtain ⟨c, cs, hcs⟩ : ∃ c cs, name = c :: cs := by
        cases h : name with
        | nil => exact absurd h hn.1
        | cons c cs => exact ⟨c, cs, rfl⟩
      have hc : body[i]? = some c := by
        have : (body.drop i)[0]? = some c := by rw [← ht, hcs]; rfl
        simpa using this
      have hi : i < body.length := by
        by_contra hcon; rw [List.getElem?_eq_none (by omega)] at hc; simp at hc
      have hnq : body[i]? ≠ some '"' := by
        rw [hc]; simp
        exact isIdChar_not_quote (hn.2 c (by simp [hcs]))
      have := hst i hi hnq
      cases hb : stAt body i with
      | true =>
        have h1 := this.2 hb
        have h2 : ¬ checkIsInString ints i = none := by rw [checkIsInString_none]; simpa using h1
        cases hx : checkIsInString ints i with
        | none => exact absurd hx h2
        | some _ => rfl
      | false =>
        have h1 : ¬ inInts ints i := by rw [this, hb]; simp
        rw [checkIsInString_none.2 h1]; rfl
    rw [hin, hp]
    cases stAt body i <;> cases (prevChar body i).any isIdChar <;> simp
  · rw [Bool.not_eq_true] at hp
    simp only [hp, Bool.false_and, Bool.and_false]

/-- Two free-standing occurrences at the same place are the same name. -/
theorem formal_unique {inStr : Bool} {prev : Option Char} {rest a b : Str} (ha : IsIdent a) (hb : IsIdent b)
    (h1 : formalHere stopCode inStr prev rest a = true) (h2 : formalHere stopCode inStr prev rest b = true) : a = b := by
  have key : ∀ {a b : Str}, IsIdent b → a.isPrefixOf rest = true → b.isPrefixOf rest = true →
      (rest.drop a.length).head?.any stopCode = false → b.length ≤ a.length := by
    intro a b hb h1 h2 h3
    by_contra hc
    obtain ⟨t, ht⟩ := List.isPrefixOf_iff_prefix.1 h2
    have hlt : a.length < b.length := by omega
    have : (rest.drop a.length).head? = some b[a.length] := by
      rw [List.head?_drop, ← ht, List.getElem?_append_left hlt, List.getElem?_eq_getElem hlt]
    rw [this] at h3
    have hid := hb.2 b[a.length] (List.getElem_mem hlt)
    simp [stopCode, hid] at h3
  simp only [formalHere, Bool.and_eq_true, Bool.not_eq_true'] at h1 h2
  have l1 := key hb h1.1.2 h2.1.2 h1.2
  have l2 := key ha h2.1.2 h1.1.2 h2.2
  have p1 := List.isPrefixOf_iff_prefix.1 h1.1.2
  have p2 := List.isPrefixOf_iff_prefix.1 h2.1.2
  exact (List.prefix_of_prefix_length_le p1 p2 (by omega)).eq_of_length (by omega)

theorem stAt_skip {body : Str} {i n : Nat} (h : ∀ j, i ≤ j → j < i + n → body[j]? ≠ some '"') :
    stAt body (i + n) = stAt body i := by
  induction n with
  | zero => rfl
  | succ n ih =>
    rw [← ih (fun j a b => h j a (by omega))]
    rw [← Nat.add_assoc, stAt]
    cases hc : body[i + n]? with
    | none => rfl
    | some c =>
      have := h (i + n) (by omega) (by omega)
      rw [hc] at this
      have : (c == '"') = false := by rw [beq_eq_false_iff_ne]; simpa using this
      simp [isQuote, this]

theorem expandFrom_skip {stop : Char → Bool} {sub : List (Str × Str)} {body : Str} {b : Bool} {i : Nat} {n : Nat}
    (h : i + n ≤ body.length) (prev : Option Char) (hprev : prev = prevChar body i) :
    expandFrom stop sub b prev n (body.drop i) = expandFrom stop sub b (prevChar body (i + n)) 0 (body.drop (i + n)) := by
  induction n generalizing i prev with
  | zero => rw [hprev]; rfl
  | succ n ih =>
    have hlt : i < body.length := by omega
    have hc : body[i]? = some body[i] := List.getElem?_eq_getElem hlt
    rw [drop_cons hc, expandFrom]
    have := ih (i := i + 1) (by omega) (some body[i]) (by simp [prevChar, hc])
    rw [this]
    have : i + 1 + n = i + (n + 1) := by omega
    rw [this]

/-- Join of the cut body. -/
def cutJoin (params : List Param) (args : List Str) (body : Str) (start : Nat) (us : List (Nat × Nat)) : Except Exc Str :=
  match cutBody params body start us with
  | .ok fr => joinFrags args fr
  | .error e => .error e

theorem joinFrags_append (args : List Str) (a b : List Frag) :
    joinFrags args (a ++ b) = (do let x ← joinFrags args a; let y ← joinFrags args b; return x ++ y) := by
  induction a with
  | nil =>
    simp only [List.nil_append, joinFrags, bind, Except.bind, pure, Except.pure]
    cases joinFrags args b <;> simp
  | cons f r ih =>
    cases f with
    | lit s =>
      simp only [List.cons_append, joinFrags, ih, bind, Except.bind, pure, Except.pure]
      cases joinFrags args r <;> simp
      cases joinFrags args b <;> simp
    | arg i =>
      simp only [List.cons_append, joinFrags]
      cases args[i]? with
      | none => rfl
      | some v =>
        simp only [ih, bind, Except.bind, pure, Except.pure]
        cases joinFrags args r <;> simp
        cases joinFrags args b <;> simp

/-- one character is copied -/
theorem cutJoin_step (params : List Param) (args : List Str) (body : Str) (start : Nat) (us : List (Nat × Nat))
    (hs : start < body.length) (hu : ∀ p ∈ us, start < p.1 ∧ p.1 ≤ body.length) (out : Str)
    (h : cutJoin params args body (start + 1) us = .ok out) :
    cutJoin params args body start us = .ok (body[start] :: out) := by
  have hd : body.drop start = body[start] :: body.drop (start + 1) := List.drop_eq_getElem_cons hs
  cases us with
  | nil =>
    simp only [cutJoin, cutBody] at h ⊢
    rw [if_pos (by omega)]
    simp only [substr, if_pos (show start ≤ body.length by omega)]
    by_cases he : start + 1 = body.length
    · rw [if_neg (by simpa using he)] at h
      simp [joinFrags] at h
      subst h
      rw [hd]
      have : body.drop (start + 1) = [] := by rw [he]; simp
      simp [joinFrags, bind, Except.bind, pure, Except.pure, this]
    · rw [if_pos he] at h
      simp only [substr, if_pos (show start + 1 ≤ body.length by omega)] at h
      simp only [joinFrags, bind, Except.bind, pure, Except.pure] at h ⊢
      simp at h
      rw [hd, ← h]; simp
  | cons u us =>
    obtain ⟨p, k⟩ := u
    have hp := hu (p, k) (by simp)
    simp only at hp
    simp only [cutJoin, cutBody] at h ⊢
    cases hk : params[k]? with
    | none => simp [hk] at h
    | some prm =>
      simp only [hk] at h ⊢
      rw [if_pos hp.1]
      simp only [substr, if_pos (show start ≤ body.length by omega)]
      cases hcb : cutBody params body (p + prm.name.length) us with
      | error e =>
        exfalso
        simp only [hcb] at h
        by_cases hlt : start + 1 < p
        · simp [substr, if_pos (show start + 1 ≤ body.length by omega), bind, Except.bind] at h
        · simp [if_neg hlt, bind, Except.bind] at h
      | ok fr =>
        simp only [hcb] at h
        have e1 : (body.drop start).take (p - start) = body[start] :: (body.drop (start + 1)).take (p - (start + 1)) := by
          rw [hd]
          have : p - start = (p - (start + 1)) + 1 := by omega
          rw [this]; rfl
        by_cases hlt : start + 1 < p
        · simp only [if_pos hlt, substr, if_pos (show start + 1 ≤ body.length by omega), bind, Except.bind, pure, Except.pure] at h
          simp only [bind, Except.bind, pure, Except.pure]
          rw [List.append_assoc, joinFrags_append] at h ⊢
          rw [e1]
          simp only [joinFrags, bind, Except.bind, pure, Except.pure] at h ⊢
          cases hj : joinFrags args ([Frag.arg k] ++ fr) with
          | error e => rw [hj] at h; simp at h
          | ok y => rw [hj] at h; simp at h ⊢; rw [← h]
        · simp only [if_neg hlt, bind, Except.bind, pure, Except.pure] at h
          simp only [bind, Except.bind, pure, Except.pure]
          have : p - (start + 1) = 0 := by omega
          rw [List.append_assoc, joinFrags_append] at h ⊢
          rw [e1, this]
          simp only [joinFrags, bind, Except.bind, pure, Except.pure] at h ⊢
          cases hj : joinFrags args ([Frag.arg k] ++ fr) with
          | error e => rw [hj] at h; simp at h
          | ok y => rw [hj] at h; simp at h ⊢; rw [← h]

theorem find_zip {names args : List Str} (hl : names.length = args.length) {f : Str → Bool} {k : Nat} {nm : Str}
    (hk : names[k]? = some nm) (hf : f nm = true) (huniq : ∀ (j : Nat) n, names[j]? = some n → f n = true → j = k) :
    ∃ a, args[k]? = some a ∧ (names.zip args).find? (fun p => f p.1) = some (nm, a) := by
  induction names generalizing args k with
  | nil => simp at hk
  | cons n ns ih =>
    cases args with
    | nil => simp at hl
    | cons a as =>
      cases k with
      | zero =>
        simp at hk; subst hk
        exact ⟨a, rfl, by simp [hf]⟩
      | succ k =>
        have hn : f n = false := by
          by_contra hc
          simp at hc
          have := huniq 0 n (by simp) hc
          omega
        obtain ⟨b, hb1, hb2⟩ := ih (args := as) (k := k) (by simpa using hl) (by simpa using hk)
          (fun j m hj hm => by have := huniq (j + 1) m (by simpa using hj) hm; omega)
        exact ⟨b, by simpa using hb1, by simp [hn, hb2]⟩

theorem expand_main (params : List Param) (args : List Str) (body : Str) (ints : List (Nat × Nat))
    (hgood : GoodNames params) (hlen : params.length = args.length)
    (hst : ∀ i < body.length, body[i]? ≠ some '"' → (inInts ints i ↔ stAt body i = true))
    (n i : Nat) (hi : i ≤ body.length) (hn : body.length - i = n) (us : List (Nat × Nat))
    (hsorted : us.Pairwise pairLe)
    (hnd : us.Nodup)
    (hus : ∀ j k, (j, k) ∈ us ↔ i ≤ j ∧ ∃ p, params[k]? = some p ∧ j ≤ body.length ∧ Occ body ints p.name j = true) :
    cutJoin params args body i us =
      .ok (expandFrom stopCode ((params.map Param.name).zip args) (stAt body i) (prevChar body i) 0 (body.drop i)) := by
  induction n using Nat.strong_induction_on generalizing i us with
  | _ n ih =>
  have hid : ∀ (k : Nat) (p : Param), params[k]? = some p → IsIdent p.name := fun k p hp => hgood.1 p (List.mem_of_getElem? hp)
  have hoccf : ∀ (k : Nat) (p : Param), params[k]? = some p → ∀ j, Occ body ints p.name j =
      formalHere stopCode (stAt body j) (prevChar body j) (body.drop j) p.name :=
    fun k p hp j => Occ_eq_formalHere (hid k p hp) hst j
  have huniq : ∀ (j k1 k2 : Nat) (p1 p2 : Param), params[k1]? = some p1 → params[k2]? = some p2 → Occ body ints p1.name j = true →
      Occ body ints p2.name j = true → k1 = k2 := by
    intro j k1 k2 p1 p2 h1 h2 o1 o2
    rw [hoccf k1 p1 h1] at o1
    rw [hoccf k2 p2 h2] at o2
    have := formal_unique (hid k1 p1 h1) (hid k2 p2 h2) o1 o2
    have e1 : (params.map Param.name)[k1]? = some p1.name := by simp [h1]
    have e2 : (params.map Param.name)[k2]? = some p1.name := by simp [h2, this]
    have hk1 : k1 < (params.map Param.name).length := by
      by_contra hc; rw [List.getElem?_eq_none (by omega)] at e1; simp at e1
    exact (List.getElem?_inj hk1 hgood.2).1 (e1.trans e2.symm)
  rcases Nat.eq_or_lt_of_le hi with rfl | hlt
  · -- at the end
    have : us = [] := by
      cases us with
      | nil => rfl
      | cons u us =>
        exfalso
        obtain ⟨j, k⟩ := u
        obtain ⟨h1, p, hp, h3, h4⟩ := (hus j k).1 (by simp)
        have : j = body.length := by omega
        subst this
        have h5 := (hid k p hp).1
        simp only [Occ, List.drop_length, Bool.and_eq_true] at h4
        have := List.isPrefixOf_iff_prefix.1 h4.1.1.1
        simp at this
        exact h5 this
    subst this
    simp [cutJoin, cutBody, joinFrags, expandFrom]
  · have hc : body[i]? = some body[i] := List.getElem?_eq_getElem hlt
    by_cases hocc : ∃ (k : Nat) (p : Param), params[k]? = some p ∧ Occ body ints p.name i = true
    · obtain ⟨k, p, hp, ho⟩ := hocc
      have hmem : (i, k) ∈ us := (hus i k).2 ⟨by omega, p, hp, by omega, ho⟩
      obtain ⟨us', rfl⟩ : ∃ us', us = (i, k) :: us' := by
        cases us with
        | nil => simp at hmem
        | cons u us' =>
          obtain ⟨j0, k0⟩ := u
          obtain ⟨h1, p0, hp0, h3, h4⟩ := (hus j0 k0).1 (by simp)
          rw [List.mem_cons] at hmem
          rcases hmem with hmem | hmem
          · exact ⟨us', by rw [hmem]⟩
          · have := (List.pairwise_cons.1 hsorted).1 _ hmem
            unfold pairLe at this
            simp only at this
            have hj : j0 = i := by omega
            subst hj
            have := huniq j0 k0 k p0 p hp0 hp h4 ho
            subst this
            exact ⟨us', rfl⟩
      have hpos : 0 < p.name.length := List.length_pos_iff.2 (hid k p hp).1
      have hpfx : p.name <+: body.drop i := by
        simp only [Occ, Bool.and_eq_true] at ho
        exact List.isPrefixOf_iff_prefix.1 ho.1.1.1
      have hle := prefix_len (by omega) hpfx
      have hchar : ∀ j, i ≤ j → j < i + p.name.length → ∃ c, body[j]? = some c ∧ isIdChar c = true := by
        intro j h1 h2
        obtain ⟨t, ht⟩ := hpfx
        have hjl : j - i < p.name.length := by omega
        refine ⟨p.name[j - i], ?_, (hid k p hp).2 _ (List.getElem_mem _)⟩
        have : (body.drop i)[j - i]? = some p.name[j - i] := by
          rw [← ht, List.getElem?_append_left hjl, List.getElem?_eq_getElem hjl]
        rw [List.getElem?_drop] at this
        rwa [show i + (j - i) = j by omega] at this
      have hstk : stAt body (i + p.name.length) = stAt body i := by
        apply stAt_skip
        intro j h1 h2 h3
        obtain ⟨c, hc1, hc2⟩ := hchar j h1 h2
        rw [hc1] at h3
        simp at h3
        exact isIdChar_not_quote hc2 h3
      have hus' : ∀ j k', (j, k') ∈ us' ↔ i + p.name.length ≤ j ∧ ∃ q, params[k']? = some q ∧ j ≤ body.length ∧
          Occ body ints q.name j = true := by
        intro j k'
        constructor
        · intro hm
          obtain ⟨h1, q, hq, h3, h4⟩ := (hus j k').1 (List.mem_cons_of_mem _ hm)
          refine ⟨?_, q, hq, h3, h4⟩
          by_contra hcon
          by_cases hji : j = i
          · subst hji
            have := huniq j k' k q p hq hp h4 ho
            subst this
            exact (List.nodup_cons.1 hnd).1 hm
          · -- j is inside of the name: preceded by an identifier character
            obtain ⟨c, hc1, hc2⟩ := hchar (j - 1) (by omega) (by omega)
            rw [hoccf k' q hq] at h4
            have hprev : prevChar body j = some c := by
              obtain ⟨m, rfl⟩ : ∃ m, j = m + 1 := ⟨j - 1, by omega⟩
              simpa [prevChar] using hc1
            simp [formalHere, hprev, hc2] at h4
        · rintro ⟨h1, q, hq, h3, h4⟩
          have := (hus j k').2 ⟨by omega, q, hq, h3, h4⟩
          rw [List.mem_cons] at this
          rcases this with h5 | h5
          · simp at h5; omega
          · exact h5
      have hrec := ih (body.length - (i + p.name.length)) (by omega) (i + p.name.length) (by omega) rfl us'
        (List.pairwise_cons.1 hsorted).2 (List.nodup_cons.1 hnd).2 hus'
      have hf : formalHere stopCode (stAt body i) (prevChar body i) (body.drop i) p.name = true := by
        rw [← hoccf k p hp]; exact ho
      obtain ⟨a, ha1, ha2⟩ := find_zip (names := params.map Param.name) (args := args) (by simpa using hlen)
        (f := fun nm => formalHere stopCode (stAt body i) (prevChar body i) (body.drop i) nm) (k := k) (nm := p.name)
        (by simp [hp]) hf (fun j nm hj hfn => by
          simp only [List.getElem?_map, Option.map_eq_some_iff] at hj
          obtain ⟨q, hq, rfl⟩ := hj
          exact huniq i j k q p hq hp (by rw [hoccf j q hq]; exact hfn) ho)
      rw [drop_cons hc] at ha2 ⊢
      rw [expandFrom, ha2]
      simp only
      have hsk := expandFrom_skip (stop := stopCode) (sub := (params.map Param.name).zip args) (body := body)
        (b := stAt body i) (i := i + 1) (n := p.name.length - 1) (by omega) (some body[i]) (by simp [prevChar, hc])
      rw [hsk, show i + 1 + (p.name.length - 1) = i + p.name.length by omega, ← hstk]
      unfold cutJoin at hrec ⊢
      rw [cutBody]
      simp only [hp]
      cases hcb : cutBody params body (i + p.name.length) us' with
      | error e => rw [hcb] at hrec; simp at hrec
      | ok fr =>
        rw [hcb] at hrec
        simp only at hrec
        simp only [lt_irrefl, if_false, bind, Except.bind, pure, Except.pure, List.nil_append, List.cons_append, joinFrags, ha1, hrec]
    · have hnone : ((params.map Param.name).zip args).find?
          (fun q => formalHere stopCode (stAt body i) (prevChar body i) (body.drop i) q.1) = none := by
        rw [List.find?_eq_none]
        rintro ⟨nm, v⟩ hmem hf
        have := (List.of_mem_zip hmem).1
        rw [List.mem_map] at this
        obtain ⟨q, hq, rfl⟩ := this
        obtain ⟨k, hk⟩ := List.getElem?_of_mem hq
        exact hocc ⟨k, q, hk, by rw [hoccf k q hk]; exact hf⟩
      rw [drop_cons hc] at hnone ⊢
      rw [expandFrom, hnone]
      simp only
      have hgt : ∀ j k, (j, k) ∈ us → i < j := by
        intro j k hm
        obtain ⟨h1, p, hp, h3, h4⟩ := (hus j k).1 hm
        rcases Nat.eq_or_lt_of_le h1 with rfl | h
        · exact absurd ⟨k, p, hp, h4⟩ hocc
        · exact h
      have hrec := ih (body.length - (i + 1)) (by omega) (i + 1) (by omega) rfl us hsorted hnd (by
        intro j k
        constructor
        · intro hm
          have := (hus j k).1 hm
          exact ⟨hgt j k hm, this.2⟩
        · rintro ⟨h1, h2⟩
          exact (hus j k).2 ⟨by omega, h2⟩)
      have := cutJoin_step params args body i us hlt (fun q hq => by
        obtain ⟨j, k⟩ := q
        have h2 := (hus j k).1 hq
        obtain ⟨_, _, _, h3, _⟩ := h2
        exact ⟨hgt j k hq, h3⟩) _ hrec
      rw [this]
      simp [stAt, prevChar, hc]

end Verif
