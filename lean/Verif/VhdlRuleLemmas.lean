import Verif.VhdlLangLemmas
/-!
# The languages of the rules of the VHDL lexer
-/
namespace Verif.Vhdl
open Verif.Antlr Verif.Antlr.Re Verif.Spec Verif.Spec.Lrm

/-! ## Prefixes -/

/-- The end of a run of characters is unique. -/
theorem split_at (p : Char → Bool) : ∀ {a b : Str} {x y : Char} {u v : Str}, a.all p = true → b.all p = true → p x = false → p y = false →
    a ++ x :: u = b ++ y :: v → a = b ∧ x = y ∧ u = v
  | [], [], _, _, _, _, _, _, _, _, e => by cases e; exact ⟨rfl, rfl, rfl⟩
  | [], c :: b, x, _, _, _, _, hb, hx, _, e => by
    have := (List.cons.inj e).1
    simp only [List.all_cons, Bool.and_eq_true] at hb
    rw [this] at hx; rw [hb.1] at hx; cases hx
  | c :: a, [], _, y, _, _, ha, _, _, hy, e => by
    have := (List.cons.inj e).1
    simp only [List.all_cons, Bool.and_eq_true] at ha
    rw [← this] at hy; rw [ha.1] at hy; cases hy
  | c :: a, d :: b, x, y, u, v, ha, hb, hx, hy, e => by
    obtain ⟨e1, e2⟩ := List.cons.inj e
    simp only [List.all_cons, Bool.and_eq_true] at ha hb
    obtain ⟨h1, h2, h3⟩ := split_at p ha.2 hb.2 hx hy e2
    exact ⟨by rw [e1, h1], h2, h3⟩

/-- A prefix of characters of a class ends where the class ends. -/
theorem pref_stop {p : Char → Bool} {u w r : Str} (h : u <+: w ++ r) (hu : u.all p = true) (hr : NotHead p r) : u.length ≤ w.length := by
  by_contra hc
  obtain ⟨t, e⟩ := h
  have hw : w <+: u := List.prefix_of_prefix_length_le (List.prefix_append w r) ⟨t, e⟩ (by omega)
  obtain ⟨u', rfl⟩ := hw
  rw [List.append_assoc] at e
  have e' := List.append_cancel_left e
  cases u' with
  | nil => simp at hc
  | cons c u' =>
    have : p c = false := hr c (by rw [← e']; rfl)
    simp [this] at hu

/-- A longer prefix starts with the shorter one. -/
theorem longer {u w r : Str} (h : u <+: w ++ r) (hl : w.length < u.length) : ∃ c v t, u = w ++ c :: v ∧ r = c :: (v ++ t) := by
  obtain ⟨t, e⟩ := h
  obtain ⟨u', rfl⟩ := List.prefix_of_prefix_length_le (List.prefix_append w r) ⟨t, e⟩ (by omega)
  rw [List.append_assoc] at e
  have e' := List.append_cancel_left e
  cases u' with
  | nil => simp at hl
  | cons c u' => exact ⟨c, u', t, rfl, by rw [← e']; rfl⟩

/-! ## Characters -/

theorem L_one {p : Char → Bool} {r : Re} (h : ∀ w, L r w ↔ ∃ c, w = [c] ∧ p c = true) (c : Char) : L r [c] ↔ p c = true := by
  rw [h]
  constructor
  · rintro ⟨d, e, hd⟩; cases e; exact hd
  · exact fun hc => ⟨c, rfl, hc⟩

/-- The class of an expression for one character. -/
def Cls (r : Re) (p : Char → Bool) : Prop := ∀ w, L r w ↔ ∃ c, w = [c] ∧ p c = true

theorem cls_set (l : List Char) : Cls (set l) fun c => l.contains c := by
  intro w; rw [L_set]; simp
theorem cls_rng (a b : Char) : Cls (rng a b) fun c => a ≤ c && c ≤ b := by
  intro w; rw [L_rng]
  simp only [Bool.and_eq_true, decide_eq_true_eq, Char.le_def, UInt32.le_iff_toNat_le]
  rfl
theorem cls_alt {a b : Re} {p q : Char → Bool} (ha : Cls a p) (hb : Cls b q) : Cls (alt a b) fun c => p c || q c := by
  intro w; rw [L_alt, ha, hb]
  constructor
  · rintro (⟨c, rfl, h⟩ | ⟨c, rfl, h⟩) <;> exact ⟨c, rfl, by simp [h]⟩
  · rintro ⟨c, rfl, h⟩
    rcases Bool.or_eq_true _ _ ▸ h with h | h
    · exact .inl ⟨c, rfl, h⟩
    · exact .inr ⟨c, rfl, h⟩
theorem Cls.congr {r : Re} {p q : Char → Bool} (h : Cls r p) (e : ∀ c, p c = q c) : Cls r q := by
  intro w; rw [h]; simp [e]

/-- The letters of the lexer. -/
def letterL (c : Char) : Bool := ('A' ≤ c && c ≤ 'Z') || (('a' ≤ c && c ≤ 'z') || ['Å'].contains c)
theorem cls_letter : Cls LETTER letterL := cls_alt (cls_rng _ _) (cls_alt (cls_rng _ _) (cls_set _))
theorem cls_digit : Cls DIGITr digit := cls_rng _ _
def alnumL (c : Char) : Bool := letterL c || digit c
theorem cls_alnum : Cls LETTER_OR_DIGIT alnumL := cls_alt cls_letter cls_digit
/-- The graphic characters of the lexer. -/
def graphicL (c : Char) : Bool := ['#', '&', '\'', '(', ')', '*', '+', ',', '-', '.', '/', ':', ';', '<', '=', '>', '?', '@', '[', ']', '_',
  '`', '|'].contains c || (alnumL c || otherChars.contains c)
theorem cls_graphic : Cls GRAPHIC_CHARACTER graphicL := cls_alt (cls_set _) (cls_alt cls_alnum (cls_set _))

/-- A character of a range is in the list of its characters. -/
theorem mem_range {c : Char} {a b : Nat} (h1 : a ≤ c.toNat) (h2 : c.toNat ≤ b) : c ∈ (List.range' a (b + 1 - a)).map Char.ofNat := by
  refine List.mem_map.2 ⟨c.toNat, ?_, Char.ofNat_toNat c⟩
  rw [List.mem_range'_1]; omega

theorem char_le {a c : Char} : (a ≤ c) ↔ a.toNat ≤ c.toNat := by
  rw [Char.le_def, UInt32.le_iff_toNat_le]; rfl

set_option maxRecDepth 4000 in
theorem graphic_lexer {c : Char} (h : graphic c = true) (hq : c ≠ '"') (hb : c ≠ '\\') : graphicL c = true := by
  have key : ∀ c ∈ (List.range' 32 95).map Char.ofNat ++ (List.range' 160 96).map Char.ofNat, c = '"' ∨ c = '\\' ∨ graphicL c = true := by
    decide +kernel
  simp only [graphic, Bool.or_eq_true, Bool.and_eq_true, decide_eq_true_eq, char_le] at h
  have : c ∈ (List.range' 32 95).map Char.ofNat ++ (List.range' 160 96).map Char.ofNat := by
    rw [List.mem_append]
    rcases h with h | h
    · exact .inl (mem_range (a := 32) (b := 126) h.1 h.2)
    · exact .inr (mem_range (a := 160) (b := 255) h.1 h.2)
  rcases key c this with h | h | h
  · exact absurd h hq
  · exact absurd h hb
  · exact h

theorem graphicL_quote : graphicL '"' = false := by decide +kernel
theorem graphicL_bs : graphicL '\\' = false := by decide +kernel

/-! ## Groups of digits -/

theorem L_groupTail {r : Re} {p : Char → Bool} (h : Cls r p) (hp : p '_' = false) (w : Str) :
    L (star (seq (opt (set ['_'])) r)) w ↔ groupTail p w = true := by
  constructor
  · intro hw
    refine L_star_ind (P := fun w => groupTail p w = true) rfl ?_ hw
    intro u v hu _ hv
    obtain ⟨a, b, rfl, ha, hb⟩ := L_seq.1 hu
    obtain ⟨c, rfl, hc⟩ := (h _).1 hb
    rcases L_opt.1 ha with ha | rfl
    · obtain ⟨d, rfl, hd⟩ := L_set.1 ha
      simp at hd; subst hd
      simp only [List.cons_append, List.nil_append]
      rw [groupTail, hc, hv]; rfl
    · simp only [List.nil_append, List.cons_append]
      have : c ≠ '_' := by rintro rfl; rw [hp] at hc; cases hc
      cases v with
      | nil =>
        rw [groupTail, hc, hv]; rfl
        intro c' s' e; exact absurd e this
      | cons d v =>
        rw [groupTail, hc, hv]; rfl
        intro c' s' e; exact absurd e this
  · intro hw
    have gen : ∀ n (w : Str), w.length ≤ n → groupTail p w = true → L (star (seq (opt (set ['_'])) r)) w := by
      intro n
      induction n with
      | zero => intro w hl _; cases w with
        | nil => exact L_star_nil
        | cons c w => simp at hl
      | succ n ih =>
        intro w hl hw
        unfold groupTail at hw
        split at hw
        · exact L_star_nil
        · rename_i c s
          simp only [Bool.and_eq_true] at hw
          refine L_star_cons (u := ['_', c]) ?_ (ih s (by simp at hl; omega) hw.2)
          exact L_seq.2 ⟨['_'], [c], rfl, L_opt.2 (.inl (L_set.2 ⟨_, rfl, by simp⟩)), (h _).2 ⟨c, rfl, hw.1⟩⟩
        · rename_i c s _
          simp only [Bool.and_eq_true] at hw
          refine L_star_cons (u := [c]) ?_ (ih s (by simp at hl; omega) hw.2)
          exact L_seq.2 ⟨[], [c], rfl, L_opt.2 (.inr rfl), (h _).2 ⟨c, rfl, hw.1⟩⟩
    exact gen _ w (Nat.le_refl _) hw

theorem L_grouped {r : Re} {p : Char → Bool} (h : Cls r p) (hp : p '_' = false) (w : Str) :
    L (seq r (star (seq (opt (set ['_'])) r))) w ↔ grouped p w = true := by
  rw [L_seq]
  constructor
  · rintro ⟨u, v, rfl, hu, hv⟩
    obtain ⟨c, rfl, hc⟩ := (h _).1 hu
    rw [L_groupTail h hp] at hv
    simp [grouped, hc, hv]
  · intro hw
    cases w with
    | nil => cases hw
    | cons c w =>
      simp only [grouped, Bool.and_eq_true] at hw
      exact ⟨[c], w, rfl, (h _).2 ⟨c, rfl, hw.1⟩, (L_groupTail h hp w).2 hw.2⟩

theorem L_integer (w : Str) : L INTEGERr w ↔ grouped digit w = true := L_grouped cls_digit (by decide) w
theorem L_basedInt (w : Str) : L BASED_INTEGER w ↔ grouped alnumL w = true := L_grouped cls_alnum (by decide) w

/-- All characters of a group. -/
theorem groupTail_all {p : Char → Bool} {w : Str} (h : groupTail p w = true) : w.all (fun c => p c || c == '_') = true := by
  have gen : ∀ n (w : Str), w.length ≤ n → groupTail p w = true → w.all (fun c => p c || c == '_') = true := by
    intro n
    induction n with
    | zero => intro w hl _; cases w with
      | nil => rfl
      | cons c w => simp at hl
    | succ n ih =>
      intro w hl hw
      unfold groupTail at hw
      split at hw
      · rfl
      · rename_i c s
        simp only [Bool.and_eq_true] at hw
        have := ih s (by simp at hl; omega) hw.2
        simp only [List.all_cons, this, hw.1]
        simp
      · rename_i c s _
        simp only [Bool.and_eq_true] at hw
        have := ih s (by simp at hl; omega) hw.2
        simp only [List.all_cons, this, hw.1]
        simp
  exact gen _ w (Nat.le_refl _) h
theorem grouped_all {p : Char → Bool} {w : Str} (h : grouped p w = true) : w.all (fun c => p c || c == '_') = true := by
  cases w with
  | nil => rfl
  | cons c w =>
    simp only [grouped, Bool.and_eq_true] at h
    simp only [List.all_cons, h.1, groupTail_all h.2]; rfl
theorem grouped_ne {p : Char → Bool} {w : Str} (h : grouped p w = true) : w ≠ [] := by rintro rfl; cases h
theorem grouped_head {p : Char → Bool} {w : Str} (h : grouped p w = true) : ∃ c s, w = c :: s ∧ p c = true := by
  cases w with
  | nil => cases h
  | cons c w =>
    simp only [grouped, Bool.and_eq_true] at h
    exact ⟨c, w, rfl, h.1⟩
theorem groupTail_last {p : Char → Bool} {w : Str} (h : groupTail p w = true) : ∀ c ∈ w.getLast?, p c = true := by
  have gen : ∀ n (w : Str), w.length ≤ n → groupTail p w = true → ∀ c ∈ w.getLast?, p c = true := by
    intro n
    induction n with
    | zero => intro w hl _; cases w with
      | nil => simp
      | cons c w => simp at hl
    | succ n ih =>
      intro w hl hw
      unfold groupTail at hw
      split at hw
      · simp
      · rename_i c s
        simp only [Bool.and_eq_true] at hw
        have := ih s (by simp at hl; omega) hw.2
        cases s with
        | nil => simp [hw.1]
        | cons d s => simpa [List.getLast?_cons_cons] using this
      · rename_i c s _
        simp only [Bool.and_eq_true] at hw
        have := ih s (by simp at hl; omega) hw.2
        cases s with
        | nil => simp [hw.1]
        | cons d s => simpa [List.getLast?_cons_cons] using this
  exact gen _ w (Nat.le_refl _) h
theorem grouped_last {p : Char → Bool} {w : Str} (h : grouped p w = true) : ∃ s c, w = s ++ [c] ∧ p c = true := by
  cases w with
  | nil => cases h
  | cons c w =>
    simp only [grouped, Bool.and_eq_true] at h
    cases e : w.getLast? with
    | none => simp at e; subst e; exact ⟨[], c, rfl, h.1⟩
    | some d =>
      obtain ⟨s, rfl⟩ := List.getLast?_eq_some_iff.1 e
      exact ⟨c :: s, d, rfl, groupTail_last h.2 d (by rw [e]; rfl)⟩
theorem grouped_mono {p q : Char → Bool} (hq : ∀ c, p c = true → q c = true) {w : Str} (h : grouped p w = true) (hp : p '_' = false) :
    grouped q w = true := by
  have gen : ∀ n (w : Str), w.length ≤ n → groupTail p w = true → groupTail q w = true := by
    intro n
    induction n with
    | zero => intro w hl _; cases w with
      | nil => rfl
      | cons c w => simp at hl
    | succ n ih =>
      intro w hl hw
      unfold groupTail at hw
      split at hw
      · rfl
      · rename_i c s
        simp only [Bool.and_eq_true] at hw
        rw [groupTail, hq _ hw.1, ih s (by simp at hl; omega) hw.2]; rfl
      · rename_i c s hx
        simp only [Bool.and_eq_true] at hw
        have hc : c ≠ '_' := by rintro rfl; rw [hp] at hw; cases hw.1
        rw [groupTail, hq _ hw.1, ih s (by simp at hl; omega) hw.2]; rfl
        intro c' s' e; exact absurd e hc
  cases w with
  | nil => cases h
  | cons c w =>
    simp only [grouped, Bool.and_eq_true] at h ⊢
    exact ⟨hq _ h.1, gen _ w (Nat.le_refl _) h.2⟩

end Verif.Vhdl
