import Verif.VhdlPickLemmas
/-!
# Which rule of the VHDL lexer takes a lexical element
-/
namespace Verif.Vhdl
open Verif.Antlr Verif.Antlr.Re Verif.Spec Verif.Spec.Lrm

/-! ## Words and numbers -/

/-- The characters words and numbers start with. -/
def alnumChars : List Char := (List.range' 97 26).map Char.ofNat ++ (List.range' 65 26).map Char.ofNat ++ (List.range' 48 10).map Char.ofNat ++ ['Å']

theorem mem_alnum {c : Char} (h : letterL c = true ∨ digit c = true) : c ∈ alnumChars := by
  simp only [letterL, digit, Bool.or_eq_true, Bool.and_eq_true, decide_eq_true_eq, char_le] at h
  simp only [alnumChars, List.mem_append]
  rcases h with (⟨h1, h2⟩ | ⟨h1, h2⟩ | h) | ⟨h1, h2⟩
  · exact .inl (.inl (.inr (mem_range (a := 65) (b := 90) h1 h2)))
  · exact .inl (.inl (.inl (mem_range (a := 97) (b := 122) h1 h2)))
  · exact .inr (by simpa using h)
  · exact .inl (.inr (mem_range (a := 48) (b := 57) h1 h2))

def wordTy : VT → Bool
  | .kw _ | .BASIC_IDENTIFIER | .DECIMAL_LITERAL | .INTEGER | .BASED_LITERAL | .BIT_STRING_LITERAL | .DIGIT => true
  | _ => false

theorem live_alnum : (alnumChars.all fun c => rules.all fun q => q.re.der (some c) == Re.empty || wordTy q.ty) = true := by decide +kernel

theorem re_of {T : VT} {X : Re} (hk : rules.all (fun q => q.ty != T || decide (q.re = X)) = true) {q : LRule} (hq : q ∈ rules) (ht : q.ty = T) :
    q.re = X := by
  have := List.all_eq_true.1 hk q hq
  simpa [ht] using this

def kwRe (q : LRule) : Bool := match q.ty with
  | .kw k => decide (q.re = ciLit k.text)
  | _ => true
theorem kw_re : rules.all kwRe = true := by decide +kernel
theorem re_kw {q : LRule} (hq : q ∈ rules) {k : Kw} (ht : q.ty = .kw k) : q.re = ciLit k.text := by
  have := List.all_eq_true.1 kw_re q hq
  simpa [kwRe, ht] using this

/-- The texts the rules for words and numbers match. -/
inductive WordText : VT → Str → Prop
  | kw {k : Kw} {u : Str} (h : u.map Char.toLower = word k) : WordText (.kw k) u
  | basic {c : Char} {s : Str} (h1 : letterL c = true) (h2 : groupTail alnumL s = true) : WordText .BASIC_IDENTIFIER (c :: s)
  | decimal {t : VT} {u : Str} (ht : t = .DECIMAL_LITERAL ∨ t = .INTEGER ∨ t = .DIGIT) (h : Decimal u) : WordText t u
  | based {u : Str} (h : BasedG alnumL u) : WordText .BASED_LITERAL u
  | bits {n b v : Str} (h1 : Opt (fun n => grouped digit n = true) n) (h2 : b.map Char.toLower ∈ baseSpecifiers) (h3 : v.all graphicL = true) :
      WordText .BIT_STRING_LITERAL (n ++ (b ++ '"' :: (v ++ ['"'])))

theorem word_text {q : LRule} (hq : q ∈ rules) (ht : wordTy q.ty = true) {u : Str} (h : L q.re u) : WordText q.ty u := by
  cases e : q.ty with
  | kw k => rw [re_kw hq e] at h; exact .kw ((L_kw k u).1 h)
  | BASIC_IDENTIFIER =>
    rw [re_of (X := BASIC_IDENTIFIERr) (by decide +kernel) hq e] at h
    obtain ⟨c, s, rfl, h1, h2⟩ := (L_basic u).1 h
    exact .basic h1 h2
  | DECIMAL_LITERAL =>
    rw [re_of (X := DECIMAL_LITERALr) (by decide +kernel) hq e] at h
    exact .decimal (.inl rfl) ((L_decimal u).1 h)
  | INTEGER =>
    rw [re_of (X := INTEGERr) (by decide +kernel) hq e] at h
    exact .decimal (.inr (.inl rfl)) (integer_decimal ((L_integer u).1 h))
  | DIGIT =>
    rw [re_of (X := DIGITr) (by decide +kernel) hq e] at h
    obtain ⟨c, rfl, hc⟩ := (cls_digit u).1 h
    exact .decimal (.inr (.inr rfl)) (integer_decimal (by simp [grouped, groupTail, hc]))
  | BASED_LITERAL =>
    rw [re_of (X := BASED_LITERALr) (by decide +kernel) hq e] at h
    exact .based ((L_based u).1 h)
  | BIT_STRING_LITERAL =>
    rw [re_of (X := BIT_STRING_LITERALr) (by decide +kernel) hq e] at h
    obtain ⟨n, b, v, rfl, h1, h2, h3⟩ := (L_bitString u).1 h
    exact .bits h1 h2 h3
  | _ => rw [e] at ht; cases ht

/-- At a letter or digit only the rules for words and numbers match. -/
theorem at_word {c : Char} (hc : letterL c = true ∨ digit c = true) {s : Str} {q : LRule} (hq : q ∈ rules) {u : Str} (hu : u <+: c :: s) (h : L q.re u) :
    WordText q.ty u := by
  obtain ⟨v, rfl, -⟩ := pref_head (not_nil hq h) hu
  exact word_text hq (alive live_alnum (mem_alnum hc) hq h) h

/-! ### Facts about the characters -/

theorem letterL_word {c : Char} (h : letterL c = true) : wordChar c = true := by
  have key : ∀ c ∈ alnumChars, wordChar c = true := by decide +kernel
  exact key c (mem_alnum (.inl h))

theorem alnumL_word {c : Char} (h : alnumL c = true) : wordChar c = true := by
  simp only [alnumL, Bool.or_eq_true] at h
  rcases h with h | h
  · exact letterL_word h
  · exact digit_word h

theorem letterL_digit {c : Char} (h : letterL c = true) : digit c = false := by
  have key : ∀ c ∈ alnumChars, letterL c = false ∨ digit c = false := by decide +kernel
  rcases key c (mem_alnum (.inl h)) with h' | h'
  · rw [h] at h'; cases h'
  · exact h'

theorem basic_word {c : Char} {s : Str} (h1 : letterL c = true) (h2 : groupTail alnumL s = true) : (c :: s).all wordChar = true := by
  rw [List.all_cons, letterL_word h1, Bool.true_and, List.all_eq_true]
  intro d hd
  have := List.all_eq_true.1 (groupTail_all h2) d hd
  simp only [Bool.or_eq_true, beq_iff_eq] at this
  rcases this with h | rfl
  · exact alnumL_word h
  · decide

theorem int_word {n : Str} (h : Opt (fun n => grouped digit n = true) n) : n.all wordChar = true := by
  rcases h with rfl | h
  · rfl
  · rw [List.all_eq_true]; exact fun c hc => (grouped_word h c hc).2

theorem base_word {b : Str} (h : b.map Char.toLower ∈ baseSpecifiers) : b.all wordChar = true := by
  rw [List.all_eq_true]
  intro c hc
  exact letterL_word (letter_of_lower (base_letters h c hc)).2.1

theorem kw_word {k : Kw} {u : Str} (h : u.map Char.toLower = word k) : ∀ c ∈ u, letterL c = true := by
  intro c hc
  have h2 := kw_lows k c.toLower (by rw [kw_text, ← h]; exact List.mem_map_of_mem hc)
  exact (letter_of_lower h2).2.1

theorem kw_allL {k : Kw} {u : Str} (h : u.map Char.toLower = word k) : u.all wordChar = true := by
  rw [List.all_eq_true]; exact fun c hc => letterL_word (kw_word h c hc)

theorem word_ne (k : Kw) : word k ≠ [] := by cases k <;> decide

/-- No character of a decimal literal is `#` or `"`. -/
theorem _root_.Verif.Spec.Lrm.Decimal.chars {w : Str} (h : Decimal w) : w.all (fun c => c != '#' && c != '"') = true := by
  have key : ∀ {i : Str}, grouped digit i = true → i.all (fun c => c != '#' && c != '"') = true := by
    intro i hi
    rw [List.all_eq_true]; intro c hc
    have := (grouped_word hi c hc).2
    simp only [Bool.and_eq_true, bne_iff_ne]
    constructor <;> (rintro rfl; revert this; decide)
  obtain ⟨i, f, x, rfl, hi, hf, hx⟩ := h
  rw [List.all_append, List.all_append, key hi]
  have h1 : f.all (fun c => c != '#' && c != '"') = true := by
    rcases hf with rfl | ⟨j, rfl, hj⟩
    · rfl
    · rw [List.all_cons, key hj]; rfl
  have h2 : x.all (fun c => c != '#' && c != '"') = true := by
    rcases hx with rfl | ⟨e, s, i, rfl, he, hs, hi⟩
    · rfl
    · rw [List.all_cons, List.all_append, key hi]
      rcases he with rfl | rfl <;> rcases hs with rfl | rfl | rfl <;> rfl
  rw [h1, h2]; rfl

theorem _root_.Verif.Spec.Lrm.Decimal.head {w : Str} (h : Decimal w) : ∃ c s, w = c :: s ∧ digit c = true := by
  obtain ⟨i, f, x, rfl, hi, hf, hx⟩ := h
  obtain ⟨c, s, rfl, hc⟩ := grouped_head hi
  exact ⟨c, _, rfl, hc⟩

theorem BasedG.head {p : Char → Bool} {w : Str} (h : BasedG p w) : ∃ c s, w = c :: s ∧ digit c = true := by
  obtain ⟨b, i, f, x, rfl, hb, _⟩ := h
  obtain ⟨c, s, rfl, hc⟩ := grouped_head hb
  exact ⟨c, _, rfl, hc⟩

/-- Two texts with the same start: the first one, without `x`, is a start of what is in front of `x`. -/
theorem upto_char {p : Char → Bool} {w s a v : Str} {x : Char} (hw : w.all p = true) (hx : p x = false) (e : a ++ x :: v = w ++ s) : ∃ b, a = w ++ b := by
  have hp : w <+: a ++ (x :: v) := ⟨s, e.symm⟩
  have := pref_stop hp hw (by intro c hc; simp at hc; subst hc; exact hx)
  have := List.prefix_of_prefix_length_le hp (List.prefix_append a (x :: v)) this
  obtain ⟨b, rfl⟩ := this
  exact ⟨b, rfl⟩

/-- Behind `w` nothing of a word follows. -/
theorem no_more {w s b v : Str} {p : Char → Bool} (h : NotHead p s) (e : (w ++ b) ++ v = w ++ s) (hb : b.all p = true) : b = [] := by
  rw [List.append_assoc] at e
  have e := List.append_cancel_left e
  cases b with
  | nil => rfl
  | cons c b =>
    have := h c (by rw [← e]; simp)
    rw [List.all_cons, this] at hb; cases hb

/-! ### Keywords and identifiers -/

/-- A word ends where it has to be separated from what follows. -/
theorem word_max {c : Char} {w s : Str} (hc : letterL c = true) (hw : (c :: w).all wordChar = true) (h1 : NotHead wordChar s)
    (h2 : (c :: w).map Char.toLower ∈ baseSpecifiers → NotHead (· == '"') s) {q : LRule} (hq : q ∈ rules) {u : Str} (hu : u <+: c :: w ++ s)
    (h : L q.re u) : u.length ≤ (c :: w).length := by
  have hd := letterL_digit hc
  have hne := not_nil hq h
  have ht := at_word (.inl hc) hq (s := w ++ s) hu h
  obtain ⟨v, e, -⟩ := pref_head hne (s := w ++ s) hu
  generalize q.ty = T at ht
  cases ht with
  | kw h => exact pref_stop hu (kw_allL h) h1
  | basic h3 h4 => exact pref_stop hu (basic_word h3 h4) h1
  | decimal _ h =>
    obtain ⟨d, t, rfl, h'⟩ := h.head
    rw [(List.cons.inj e).1, hd] at h'; cases h'
  | based h =>
    obtain ⟨d, t, rfl, h'⟩ := h.head
    rw [(List.cons.inj e).1, hd] at h'; cases h'
  | @bits n b x h3 h4 h5 =>
    obtain ⟨t, e1⟩ := hu
    rcases h3 with rfl | h3
    · rw [List.nil_append, List.append_assoc, List.cons_append] at e1
      obtain ⟨b', rfl⟩ := upto_char hw (by decide) e1
      have := no_more h1 e1 (by have := base_word h4; rw [List.all_append, Bool.and_eq_true] at this; exact this.2)
      subst this
      rw [List.append_nil] at e1 h4
      have e2 := List.append_cancel_left e1
      have := h2 h4 '"' (by rw [← e2]; simp)
      cases this
    · obtain ⟨d, t, rfl, h'⟩ := grouped_head h3
      rw [(List.cons.inj e).1, hd] at h'; cases h'

theorem mem_kw (k : Kw) : k ∈ Kw.all := by cases k <;> decide
theorem kw_nodup : Kw.all.Nodup := by decide +kernel
theorem words_nodup : (Kw.all.map word).Nodup := by decide +kernel
theorem word_inj {j k : Kw} (h : word j = word k) : j = k := List.inj_on_of_nodup_map words_nodup (mem_kw j) (mem_kw k) h

/-- A keyword. -/
theorem pick_kw {k : Kw} {w s : Str} (hw : w.map Char.toLower = word k) (ha : Apart (.kw k) w s) :
    pick LRule.re (rulesAt (w ++ s)) (syms (w ++ s)) = some (⟨.kw k, ciLit k.text, false⟩, w.length) := by
  obtain ⟨a, b, e⟩ := List.append_of_mem (mem_kw k)
  have hnd := kw_nodup
  rw [e] at hnd
  have hk : k ∉ a := fun hm => by
    rw [List.nodup_append] at hnd
    exact hnd.2.2 k hm k (by simp) rfl
  have hr : rules = a.map (fun k => (⟨.kw k, ciLit k.text, false⟩ : LRule)) ++ ⟨.kw k, ciLit k.text, false⟩ ::
      (b.map (fun k => (⟨.kw k, ciLit k.text, false⟩ : LRule)) ++ (midRules ++ symRules)) := by
    rw [rules, kwRules, e]; simp
  have hall := kw_allL hw
  have hlet := kw_word hw
  cases w with
  | nil => exact absurd hw.symm (word_ne k)
  | cons c w =>
    refine choose hr (fun e => by cases e) ((L_kw k _).2 hw) ?_ ?_
    · intro q hq _ u hu h
      exact word_max (hlet c (by simp)) hall ha.1 ha.2 hq hu h
    · intro q hq h
      obtain ⟨j, hj, rfl⟩ := List.mem_map.1 hq
      rw [L_kw, hw] at h
      exact hk (word_inj h ▸ hj)

/-- A basic identifier. -/
theorem pick_basic {w s : Str} (hw : BasicId w) (hres : w.map Char.toLower ∉ reserved) (hlim : ∀ c ∈ w, c.toNat < 128 ∨ c = 'Å')
    (ha : Apart .BASIC_IDENTIFIER w s) :
    pick LRule.re (rulesAt (w ++ s)) (syms (w ++ s)) = some (⟨.BASIC_IDENTIFIER, BASIC_IDENTIFIERr, false⟩, w.length) := by
  have hl : ∀ c, letter c = true → c.toNat < 128 ∨ c = 'Å' → letterL c = true := by
    intro c h h'
    simp only [letter, letterL, Bool.or_eq_true, Bool.and_eq_true, decide_eq_true_eq, char_le] at h ⊢
    rcases h with (h | h) | h
    · exact .inl h
    · exact .inr (.inl h)
    · rcases h' with h' | rfl
      · exfalso
        have h := h.1.1.1
        have : 'À'.toNat = 192 := rfl
        omega
      · exact .inr (.inr (by decide))
  obtain ⟨c, t, rfl, h1, h2⟩ := hw
  have hc := hl c h1 (hlim c (by simp))
  have ht : groupTail alnumL t = true := by
    have hlim' : ∀ c ∈ t, c.toNat < 128 ∨ c = 'Å' := fun c hc => hlim c (by simp [hc])
    clear ha hres hlim
    fun_induction groupTail (fun c => letter c || digit c) t with
    | case1 => rfl
    | case2 d t ih =>
      rw [Bool.and_eq_true] at h2
      rw [groupTail, Bool.and_eq_true]
      refine ⟨?_, ih h2.2 fun c hc => hlim' c (by simp [hc])⟩
      have h3 := h2.1
      simp only [alnumL, Bool.or_eq_true] at h3 ⊢
      exact h3.imp (fun h => hl _ h (hlim' _ (by simp))) id
    | case3 d t hx ih =>
      rw [Bool.and_eq_true] at h2
      rw [groupTail, Bool.and_eq_true]
      · refine ⟨?_, ih h2.2 fun c hc => hlim' c (by simp [hc])⟩
        have h3 := h2.1
        simp only [alnumL, Bool.or_eq_true] at h3 ⊢
        exact h3.imp (fun h => hl _ h (hlim' _ (by simp))) id
      · exact hx
  refine choose (l1 := kwRules) (l2 := midRules.tail ++ symRules) (by simp [rules, midRules]) (fun e => by cases e) ((L_basic _).2 ⟨c, t, rfl, hc, ht⟩) ?_ ?_
  · intro q hq _ u hu h
    exact word_max hc (basic_word hc ht) ha.1 ha.2 hq hu h
  · intro q hq h
    obtain ⟨j, -, rfl⟩ := List.mem_map.1 hq
    rw [L_kw] at h
    have key : ∀ j ∈ Kw.all, word j ∈ reserved := by decide +kernel
    exact hres (h ▸ key j (mem_kw j))

/-! ### Numbers -/

theorem pick_decimal {w s : Str} (hw : Decimal w) (ha : Apart .DECIMAL_LITERAL w s) :
    pick LRule.re (rulesAt (w ++ s)) (syms (w ++ s)) = some (⟨.DECIMAL_LITERAL, DECIMAL_LITERALr, false⟩, w.length) := by
  obtain ⟨h1, h2, h3⟩ := ha
  obtain ⟨c, t, e, hc⟩ := hw.head
  have hat : ∀ {q : LRule}, q ∈ rules → ∀ {u : Str}, u <+: w ++ s → L q.re u → WordText q.ty u ∧ ∃ v, u = c :: v := by
    intro q hq u hu h
    rw [e] at hu
    refine ⟨at_word (.inr hc) hq (s := t ++ s) hu h, ?_⟩
    obtain ⟨v, e, -⟩ := pref_head (not_nil hq h) (s := t ++ s) hu
    exact ⟨v, e⟩
  refine choose (l1 := kwRules ++ midRules.take 2) (l2 := midRules.drop 3 ++ symRules) (by simp [rules, midRules]) (fun e => by cases e)
    ((L_decimal _).2 hw) ?_ ?_
  · intro q hq _ u hu h
    obtain ⟨ht, v, ev⟩ := hat hq hu h
    generalize q.ty = T at ht
    cases ht with
    | kw h =>
      have := kw_word h c (by rw [ev]; simp)
      rw [letterL_digit this] at hc; cases hc
    | basic h3 _ => rw [(List.cons.inj ev).1] at h3; rw [letterL_digit h3] at hc; cases hc
    | decimal _ h => exact hw.upto h1 h3 h hu
    | based h =>
      exfalso
      obtain ⟨b, i, f, x, rfl, hb, _⟩ := h
      obtain ⟨r, e1⟩ := hu
      rw [List.append_assoc, List.cons_append] at e1
      have hw' : w.all (· != '#') = true := by
        have := hw.chars
        rw [List.all_eq_true] at this ⊢
        intro c hc; have := this c hc; simp at this ⊢; exact this.1
      obtain ⟨b', rfl⟩ := upto_char hw' (by decide) e1
      have hb' : (w ++ b').all wordChar = true := int_word (.inr hb)
      rw [List.all_append, Bool.and_eq_true] at hb'
      have := no_more h1 e1 hb'.2
      subst this
      rw [List.append_nil] at e1
      have := h2 '#' (by rw [← List.append_cancel_left e1]; simp)
      cases this
    | @bits n b x h4 h5 h6 =>
      exfalso
      obtain ⟨r, e1⟩ := hu
      have e1 : (n ++ b) ++ '"' :: (x ++ ['"'] ++ r) = w ++ s := by simpa using e1
      have hw' : w.all (· != '"') = true := by
        have := hw.chars
        rw [List.all_eq_true] at this ⊢
        intro c hc; have := this c hc; simp at this ⊢; exact this.2
      obtain ⟨b', e2⟩ := upto_char hw' (by decide) e1
      have hb' : (n ++ b).all wordChar = true := by rw [List.all_append, int_word h4, base_word h5]; rfl
      rw [e2, List.all_append, Bool.and_eq_true] at hb'
      rw [e2] at e1
      have := no_more h1 e1 hb'.2
      subst this
      rw [List.append_nil] at e2
      obtain ⟨w', d, rfl, hd⟩ := hw.last
      have hbn := base_ne h5
      obtain ⟨b', d', rfl⟩ := (List.eq_nil_or_concat b).resolve_left hbn
      rw [List.concat_eq_append, ← List.append_assoc] at e2
      have e3 := (List.append_inj' e2 rfl).2
      have := (letter_of_lower (base_letters h5 d' (by simp))).2.2.1
      have e4 := (List.cons.inj e3).1
      subst e4
      rw [hd] at this; cases this
  · intro q hq h
    have hq' : q ∈ rules := by rw [rules, ← List.take_append_drop 2 midRules]; simp only [List.mem_append] at hq ⊢; tauto
    obtain ⟨ht, v, ev⟩ := hat hq' (List.prefix_append _ _) h
    rcases List.mem_append.1 hq with hq | hq
    · obtain ⟨j, -, rfl⟩ := List.mem_map.1 hq
      rw [L_kw] at h
      have := kw_word h c (by rw [ev]; simp)
      rw [letterL_digit this] at hc; cases hc
    · simp only [midRules, List.take, List.mem_cons, List.not_mem_nil, or_false] at hq
      rcases hq with rfl | rfl
      · obtain ⟨c', s', e', h1, _⟩ := (L_basic _).1 h
        rw [e'] at ev
        rw [(List.cons.inj ev).1] at h1; rw [letterL_digit h1] at hc; cases hc
      · exact absurd ht (by intro ht; cases ht with | decimal h _ => simp at h)

theorem extDigit_alnum {c : Char} (h : extDigit c = true) : alnumL c = true := by
  simp only [extDigit, alnumL, letterL, Bool.or_eq_true] at h ⊢
  tauto

theorem based_alnum {w : Str} (h : Based w) : BasedG alnumL w := by
  obtain ⟨b, i, f, x, rfl, h1, h2, h3, h4⟩ := h
  refine ⟨b, i, f, x, rfl, h1, grouped_mono (fun c => extDigit_alnum) h2 (by decide), ?_, h4⟩
  rcases h3 with rfl | ⟨j, rfl, hj⟩
  · exact .inl rfl
  · exact .inr ⟨j, rfl, grouped_mono (fun c => extDigit_alnum) hj (by decide)⟩

theorem pick_based {w s : Str} (hw : Based w) (ha : Apart .BASED_LITERAL w s) :
    pick LRule.re (rulesAt (w ++ s)) (syms (w ++ s)) = some (⟨.BASED_LITERAL, BASED_LITERALr, false⟩, w.length) := by
  have hw := based_alnum hw
  obtain ⟨c, t, e, hc⟩ := hw.head
  have hat : ∀ {q : LRule}, q ∈ rules → ∀ {u : Str}, u <+: w ++ s → L q.re u → WordText q.ty u ∧ ∃ v, u = c :: v := by
    intro q hq u hu h
    rw [e] at hu
    refine ⟨at_word (.inr hc) hq (s := t ++ s) hu h, ?_⟩
    obtain ⟨v, e, -⟩ := pref_head (not_nil hq h) (s := t ++ s) hu
    exact ⟨v, e⟩
  have hdec : ∀ {u : Str}, u <+: w ++ s → Decimal u → u.length < w.length := by
    intro u hu h
    obtain ⟨b, i, f, x, rfl, hb, _⟩ := hw
    have hu' : u.all (· != '#') = true := by
      have := h.chars
      rw [List.all_eq_true] at this ⊢
      intro c hc; have := this c hc; simp at this ⊢; exact this.1
    rw [List.append_assoc] at hu
    have := pref_stop hu hu' (by intro d hd; simp at hd; subst hd; rfl)
    simp; omega
  refine choose (l1 := kwRules ++ midRules.take 4) (l2 := midRules.drop 5 ++ symRules) (by simp [rules, midRules]) (fun e => by cases e)
    ((L_based _).2 hw) ?_ ?_
  · intro q hq _ u hu h
    obtain ⟨ht, v, ev⟩ := hat hq hu h
    generalize q.ty = T at ht
    cases ht with
    | kw h =>
      have := kw_word h c (by rw [ev]; simp)
      rw [letterL_digit this] at hc; cases hc
    | basic h3 _ => rw [(List.cons.inj ev).1] at h3; rw [letterL_digit h3] at hc; cases hc
    | decimal _ h => exact Nat.le_of_lt (hdec hu h)
    | based h => exact hw.upto (by decide) (by decide) ha h hu
    | @bits n b x h4 h5 h6 =>
      exfalso
      obtain ⟨r, e1⟩ := hu
      obtain ⟨b', i, f, y, rfl, hb', _⟩ := hw
      have e1 : (n ++ b) ++ '"' :: (x ++ ['"'] ++ r) = b' ++ '#' :: (i ++ (f ++ '#' :: y) ++ s) := by simpa using e1
      have hb : (n ++ b).all wordChar = true := by rw [List.all_append, int_word h4, base_word h5]; rfl
      have := (split_at wordChar hb (int_word (.inr hb')) (by decide) (by decide) e1).2.1
      exact absurd this (by decide)
  · intro q hq h
    have hq' : q ∈ rules := by rw [rules, ← List.take_append_drop 4 midRules]; simp only [List.mem_append] at hq ⊢; tauto
    obtain ⟨ht, v, ev⟩ := hat hq' (List.prefix_append _ _) h
    rcases List.mem_append.1 hq with hq | hq
    · obtain ⟨j, -, rfl⟩ := List.mem_map.1 hq
      rw [L_kw] at h
      have := kw_word h c (by rw [ev]; simp)
      rw [letterL_digit this] at hc; cases hc
    · simp only [midRules, List.take, List.mem_cons, List.not_mem_nil, or_false] at hq
      rcases hq with rfl | rfl | rfl | rfl
      · obtain ⟨c', s', e', h1, _⟩ := (L_basic _).1 h
        rw [e'] at ev
        rw [(List.cons.inj ev).1] at h1; rw [letterL_digit h1] at hc; cases hc
      · exact absurd ht (by intro ht; cases ht with | decimal h _ => simp at h)
      · exact absurd (hdec (List.prefix_append _ _) ((L_decimal _).1 h)) (Nat.lt_irrefl _)
      · exact absurd (hdec (List.prefix_append _ _) (integer_decimal ((L_integer _).1 h))) (Nat.lt_irrefl _)

theorem pick_bits {w s : Str} (hw : BitString w) :
    pick LRule.re (rulesAt (w ++ s)) (syms (w ++ s)) = some (⟨.BIT_STRING_LITERAL, BIT_STRING_LITERALr, false⟩, w.length) := by
  obtain ⟨n, b, v, rfl, h1, h2, h3⟩ := hw
  have hab : (n ++ b).all wordChar = true := by rw [List.all_append, int_word h1, base_word h2]; rfl
  have hvq : v.all (· != '"') = true := by
    rw [List.all_eq_true] at h3 ⊢
    intro c hc; have := h3 c hc; simp at this ⊢; exact this.1.2
  have hvg : v.all graphicL = true := by
    rw [List.all_eq_true] at h3 ⊢
    intro c hc; have := h3 c hc; simp at this
    exact graphic_lexer this.1.1 this.1.2 this.2
  obtain ⟨c, t, e, hc⟩ : ∃ c t, n ++ b = c :: t ∧ (letterL c = true ∨ digit c = true) := by
    rcases h1 with rfl | h1
    · have := base_ne h2
      cases b with
      | nil => exact absurd rfl this
      | cons c b => exact ⟨c, b, rfl, .inl (letter_of_lower (base_letters h2 c (by simp))).2.1⟩
    · obtain ⟨c, t, rfl, h⟩ := grouped_head h1
      exact ⟨c, _, rfl, .inr h⟩
  have hat : ∀ {q : LRule}, q ∈ rules → ∀ {u : Str}, u <+: n ++ (b ++ '"' :: (v ++ ['"'])) ++ s → L q.re u → WordText q.ty u := by
    intro q hq u hu h
    have hu : u <+: (n ++ b) ++ ('"' :: (v ++ ['"']) ++ s) := by simpa using hu
    rw [e] at hu
    exact at_word hc hq (s := t ++ ('"' :: (v ++ ['"']) ++ s)) hu h
  have hshort : ∀ {u : Str}, u <+: n ++ (b ++ '"' :: (v ++ ['"'])) ++ s → u.all (· != '"') = true → u.length < (n ++ (b ++ '"' :: (v ++ ['"']))).length := by
    intro u hu h
    have hu : u <+: (n ++ b) ++ ('"' :: (v ++ ['"']) ++ s) := by simpa using hu
    have := pref_stop hu h (by intro d hd; simp at hd; subst hd; rfl)
    simp at this ⊢; omega
  have hwordq : ∀ {u : Str}, u.all wordChar = true → u.all (· != '"') = true := by
    intro u h
    rw [List.all_eq_true] at h ⊢
    intro c hc; have := h c hc
    simp only [bne_iff_ne]; rintro rfl; revert this; decide
  have hnb : ∀ {T : VT} {u : Str}, T ≠ .BIT_STRING_LITERAL → u <+: n ++ (b ++ '"' :: (v ++ ['"'])) ++ s → WordText T u →
      u.length < (n ++ (b ++ '"' :: (v ++ ['"']))).length := by
    intro T u hT hu h
    cases h with
    | kw h => exact hshort hu (hwordq (kw_allL h))
    | basic h h' => exact hshort hu (hwordq (basic_word h h'))
    | decimal _ h =>
      refine hshort hu ?_
      have := h.chars
      rw [List.all_eq_true] at this ⊢
      intro c hc; have := this c hc; simp at this ⊢; exact this.2
    | based h =>
      exfalso
      obtain ⟨b', i, f, x, rfl, hb', _⟩ := h
      obtain ⟨r, e1⟩ := hu
      have e1 : b' ++ '#' :: (i ++ (f ++ '#' :: x) ++ r) = (n ++ b) ++ '"' :: (v ++ ['"'] ++ s) := by simpa using e1
      have := (split_at wordChar (int_word (.inr hb')) hab (by decide) (by decide) e1).2.1
      exact absurd this (by decide)
    | bits => exact absurd rfl hT
  refine choose (l1 := kwRules ++ midRules.take 7) (l2 := midRules.drop 8 ++ symRules) (by simp [rules, midRules]) (fun e => by cases e)
    ((L_bitString _).2 ⟨n, b, v, rfl, h1, h2, hvg⟩) ?_ ?_
  · intro q hq _ u hu h
    have ht := hat hq hu h
    by_cases hT : q.ty = .BIT_STRING_LITERAL
    · rw [hT] at ht
      cases ht with
      | decimal h _ => simp at h
      | @bits n' b' v' h1' h2' h3' =>
        obtain ⟨r, e1⟩ := hu
        have e1 : (n' ++ b') ++ '"' :: (v' ++ '"' :: r) = (n ++ b) ++ '"' :: (v ++ '"' :: s) := by simpa using e1
        have hab' : (n' ++ b').all wordChar = true := by rw [List.all_append, int_word h1', base_word h2']; rfl
        obtain ⟨e2, -, e3⟩ := split_at wordChar hab' hab (by decide) (by decide) e1
        have hvq' : v'.all (· != '"') = true := by
          rw [List.all_eq_true] at h3' ⊢
          intro c hc; have := h3' c hc
          simp only [bne_iff_ne]; rintro rfl; rw [graphicL_quote] at this; cases this
        obtain ⟨e4, -, -⟩ := split_at (· != '"') hvq' hvq (by decide) (by decide) e3
        have e5 := congrArg List.length e2
        subst e4
        simp at e5 ⊢; omega
    · exact Nat.le_of_lt (hnb hT hu ht)
  · intro q hq h
    have hq' : q ∈ rules := by rw [rules, ← List.take_append_drop 7 midRules]; simp only [List.mem_append] at hq ⊢; tauto
    have ht := hat hq' (List.prefix_append _ _) h
    have hT : q.ty ≠ .BIT_STRING_LITERAL := by
      rcases List.mem_append.1 hq with hq | hq
      · obtain ⟨j, -, rfl⟩ := List.mem_map.1 hq
        simp
      · simp only [midRules, List.take, List.mem_cons, List.not_mem_nil, or_false] at hq
        rcases hq with rfl | rfl | rfl | rfl | rfl | rfl | rfl <;> simp
    exact absurd (hnb hT (List.prefix_append _ _) ht) (Nat.lt_irrefl _)

end Verif.Vhdl
