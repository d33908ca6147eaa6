import Verif.VhdlDelimLemmas
/-!
# The VHDL lexer on a divided text, and the division of a text by the lexer
-/
namespace Verif.Vhdl
open Verif.Antlr Verif.Antlr.Re Verif.Spec Verif.Spec.Lrm

theorem utf8_bytes (w : Str) : utf8 w = bytes w := by
  simp [utf8, bytes, List.utf8Encode, List.map_flatMap]

theorem bytes_inj {v w : Str} (h : bytes v = bytes w) : v = w := by
  have hi : Function.Injective fun b : UInt8 => Char.ofNat b.toNat := by
    intro a b h
    have key : ∀ n < 256, (Char.ofNat n).toNat = n := by decide +kernel
    have h1 := key a.toNat a.toNat_lt
    have h2 := key b.toNat b.toNat_lt
    have h : Char.ofNat a.toNat = Char.ofNat b.toNat := h
    rw [h, h2] at h1
    exact UInt8.toNat_inj.1 h1.symm
  have h1 := List.map_injective_iff.2 hi h
  have h2 : (String.ofList v).toByteArray = (String.ofList w).toByteArray := ByteArray.ext (Array.toList_inj.1 h1)
  have h3 : String.ofList v = String.ofList w := String.toByteArray_inj.1 h2
  exact String.ofList_injective h3

theorem tokenOf_inj {x y : VT × Str} (h : tokenOf x = tokenOf y) : x = y := by
  obtain ⟨t, v⟩ := x
  obtain ⟨u, w⟩ := y
  have h1 := congrArg VTok.ty h
  have h2 : v = w := bytes_inj (congrArg VTok.text h)
  simp only [tokenOf] at h1
  rw [h1, h2]

theorem element_delim {t : VT} {w s : Str} (hw : (t, w) ∈ delimiters) (ha : Apart t w s) :
    (∀ d ∈ delimiters, d.2 <+: w ++ s → d.2.length ≤ w.length) ∧ ¬ ['-', '-'] <+: w ++ s ∧ ¬ ['/', '*'] <+: w ++ s := by
  simp only [delimiters, List.mem_cons, List.not_mem_nil, or_false, Prod.mk.injEq] at hw
  rcases hw with hw | hw | hw | hw | hw | hw | hw | hw | hw | hw | hw | hw | hw | hw | hw | hw | hw | hw | hw | hw | hw | hw | hw | hw | hw | hw |
    hw | hw | hw | hw | hw | hw | hw | hw | hw | hw | hw | hw <;> (rw [hw.1] at ha; exact ha)

/-- The lexer takes an element as a token. -/
theorem lex_elem {t : VT} {w s : Str} (ht : Element t w) (ha : Apart t w s) (hr : Limits.supported.elem t w s) :
    lex (w ++ s) = (lex s).map fun ts => tokenOf (t, w) :: ts := by
  have key : ∀ {r : LRule}, w ≠ [] → pick LRule.re (rulesAt (w ++ s)) (syms (w ++ s)) = some (r, w.length) → r.hide = false → r.ty = t →
      lex (w ++ s) = (lex s).map fun ts => tokenOf (t, w) :: ts := by
    intro r hw hp hh hty
    rw [lex_visible hw hp hh, hty, utf8_bytes]; rfl
  have hd : (t, w) ∈ delimiters → lex (w ++ s) = (lex s).map fun ts => tokenOf (t, w) :: ts := by
    intro hd
    obtain ⟨h1, h2, h3⟩ := element_delim hd ha
    refine key ?_ (pick_delim hd h1 h2 h3 hr.2.2.2) rfl rfl
    obtain ⟨c, -, h⟩ := delim_head _ hd
    rintro rfl; simp at h
  cases t with
  | kw k =>
    refine key ?_ (pick_kw ht ha) rfl rfl
    rintro rfl; exact word_ne k ht.symm
  | BASIC_IDENTIFIER =>
    refine key ?_ (pick_basic ht.1 ht.2 (hr.1 rfl) ha) rfl rfl
    obtain ⟨c, v, rfl, -⟩ := ht.1; simp
  | EXTENDED_IDENTIFIER =>
    refine key ?_ (pick_extended ht (hr.2.1 rfl) ha) rfl rfl
    obtain ⟨v, rfl, -⟩ := ht; simp
  | DECIMAL_LITERAL =>
    refine key ?_ (pick_decimal ht ha) rfl rfl
    obtain ⟨c, v, rfl, -⟩ := _root_.Verif.Spec.Lrm.Decimal.head ht; simp
  | BASED_LITERAL =>
    refine key ?_ (pick_based ht ha) rfl rfl
    obtain ⟨c, v, rfl, -⟩ := (based_alnum ht).head; simp
  | CHARACTER_LITERAL =>
    refine key ?_ (pick_char ht (hr.2.2.1 rfl)) rfl rfl
    obtain ⟨c, rfl, -⟩ := ht; simp
  | STRING_LITERAL =>
    refine key ?_ (pick_string ht ha) rfl rfl
    obtain ⟨v, rfl, -⟩ := ht; simp
  | BIT_STRING_LITERAL =>
    refine key ?_ (pick_bits ht) rfl rfl
    obtain ⟨n, b, v, rfl, -⟩ := ht; simp
  | _ => exact hd ht

/-- The lexer on a divided text. -/
theorem lex_divided {p : Option VT} {s : Str} {ts : List (VT × Str)} (h : Divided .supported p s ts) : lex s = some (ts.map tokenOf) := by
  induction h with
  | nil => exact lex_nil
  | @sep p c s ts hc hr h ih =>
    have hr : c ∈ [' ', '\t', '\n', '\r'] := hr
    simp only [List.mem_cons, List.not_mem_nil, or_false] at hr
    rcases hr with rfl | rfl | rfl | rfl
    · rw [lex_space, ih]
    · rw [lex_tab, ih]
    · rw [lex_lf, ih]
    · rw [lex_cr, ih]
  | @line p w s ts hw hs hr h ih =>
    have hw' : '\n' ∉ w := fun hm => hw _ hm (by decide)
    have hr : s = [] ∨ (∃ r, s = '\n' :: r) ∨ ∃ r, s = '\r' :: '\n' :: r := hr
    rcases hr with rfl | ⟨r, rfl⟩ | ⟨r, rfl⟩
    · rw [lex_comment hw' (.inl rfl), ih]
    · rw [lex_comment hw' (.inr ⟨r, rfl⟩), ih]
    · have e : w ++ '\r' :: '\n' :: r = (w ++ ['\r']) ++ '\n' :: r := by simp
      rw [e, lex_comment (by simpa using hw') (.inr ⟨r, rfl⟩), ← ih, lex_cr]
  | @block p w s ts hw h ih => rw [lex_block hw, ih]
  | @elem p t w s ts ht ha hp hr h ih => rw [lex_elem ht ha hr, ih]; rfl

/-! ## The way back -/

/-- A rule in front with a match that is not shorter wins. -/
theorem pick_skip {α : Type} {re : α → Re} {s : List Sym} {d r : α} {n m : Nat} {l2 : List α} (hd : longest (re d) s = some m) (hm : n ≤ m) :
    ∀ {l1 : List α}, pick re (l1 ++ d :: l2) s = some (r, n) → r ∈ l1 ++ [d]
  | [], h => by
    rw [List.nil_append, pick, hd] at h
    cases e : pick re l2 s with
    | none => rw [e] at h; simp at h; simp [h.1]
    | some x =>
      obtain ⟨q, k⟩ := x
      rw [e] at h
      simp only at h
      split at h
      · simp only [Option.some.injEq, Prod.mk.injEq] at h; omega
      · simp at h; simp [h.1]
  | q :: l1, h => by
    rw [List.cons_append, pick] at h
    cases e : longest (re q) s with
    | none =>
      rw [e] at h
      have := pick_skip hd hm (l1 := l1) h
      simp at this ⊢; tauto
    | some k =>
      rw [e] at h
      cases e' : pick re (l1 ++ d :: l2) s with
      | none => rw [e'] at h; simp at h; simp [h.1]
      | some x =>
        obtain ⟨p, j⟩ := x
        rw [e'] at h
        simp only at h
        split at h
        · simp only [Option.some.injEq, Prod.mk.injEq] at h
          obtain ⟨rfl, rfl⟩ := h
          have := pick_skip hd hm (l1 := l1) e'
          simp at this ⊢; tauto
        · simp at h; simp [h.1]

theorem longest_ge {r : Re} {w s : Str} (hw : w <+: s) (h : L r w) : ∃ m, longest r (syms s) = some m ∧ w.length ≤ m := by
  have hle := hw.length_le
  cases e : longest r (syms s) with
  | none =>
    exfalso
    refine longest_none_iff.1 e w.length ?_
    rw [take_syms hle, ← List.prefix_iff_eq_take.1 hw]
    exact h
  | some m =>
    exact ⟨m, rfl, longest_bound e hw h⟩

/-- If a rule matches the same text, a rule behind it is not chosen. -/
theorem not_behind {s w : Str} {r d : LRule} {l1 l2 : List LRule} (hr : rules = l1 ++ d :: l2) (hd : d.ty ≠ .CHARACTER_LITERAL)
    (hp : pick LRule.re (rulesAt s) (syms s) = some (r, w.length)) (hw : w <+: s) (h : L d.re w) : r ∈ l1 ++ [d] := by
  have hk : (d.ty != VT.CHARACTER_LITERAL || charGuard s) = true := by simp [hd]
  rw [rulesAt, hr, List.filter_append, List.filter_cons, if_pos hk] at hp
  obtain ⟨m, h1, h2⟩ := longest_ge hw h
  have := pick_skip (re := LRule.re) h1 h2 hp
  simp only [List.mem_append, List.mem_filter] at this ⊢
  tauto

/-- What is chosen. -/
theorem chosen {s : Str} {r : LRule} {n : Nat} (hp : pick LRule.re (rulesAt s) (syms s) = some (r, n)) :
    r ∈ rules ∧ ∃ w t, s = w ++ t ∧ w.length = n ∧ w ≠ [] ∧ L r.re w ∧ longest r.re (syms s) = some n := by
  obtain ⟨h1, h2⟩ := pick_some hp
  have hr := (mem_rulesAt h1).1
  obtain ⟨h3, h4, -⟩ := longest_some_iff.1 h2
  have hno := List.all_eq_true.1 rules_noEof r hr
  have hn : n ≤ s.length := longest_le hno (fun u hu _ => hu.length_le) h2
  rw [take_syms hn] at h4
  refine ⟨hr, s.take n, s.drop n, (List.take_append_drop n s).symm, by simp [hn], not_nil hr h4, h4, h2⟩

theorem Body_body {q : Char} {p : Char → Bool} {v : Str} (h : Body q p v) : body q p v = true := by
  induction h with
  | nil => rfl
  | @ch c s hc hp h ih =>
    cases s with
    | nil => simp [body, hc, hp]
    | cons d s => rw [body, if_neg (by simpa using hc), hp, ih]; rfl
  | @qq s h ih => rw [body, if_pos (by simp), ih]; simp

theorem groupTail_mono {p q : Char → Bool} {w : Str} (h : groupTail p w = true) (hq : ∀ c ∈ w, p c = true → q c = true) : groupTail q w = true := by
  fun_induction groupTail p w with
  | case1 => rfl
  | case2 c s ih =>
    rw [Bool.and_eq_true] at h
    rw [groupTail, hq c (by simp) h.1, ih h.2 fun c hc => hq c (by simp [hc])]; rfl
  | case3 c s hx ih =>
    rw [Bool.and_eq_true] at h
    rw [groupTail, hq c (by simp) h.1, ih h.2 fun c hc => hq c (by simp [hc])]
    · rfl
    · exact hx

theorem grouped_mono' {p q : Char → Bool} {w : Str} (h : grouped p w = true) (hq : ∀ c ∈ w, p c = true → q c = true) : grouped q w = true := by
  cases w with
  | nil => cases h
  | cons c s =>
    simp only [grouped, Bool.and_eq_true] at h ⊢
    exact ⟨hq c (by simp) h.1, groupTail_mono h.2 fun c hc => hq c (by simp [hc])⟩

/-- The characters without deviations. -/
def plain (c : Char) : Prop := c.toNat < 256 ∧ c ≠ 'Å'

theorem plain_mem {c : Char} (h : plain c) : c ∈ (List.range' 0 256).map Char.ofNat := mem_range (a := 0) (b := 255) (Nat.zero_le _) (by have := h.1; omega)

theorem plain_graphic {c : Char} (h : plain c) (hg : graphicL c = true) : graphic c = true ∧ c ≠ '"' ∧ c ≠ '\\' := by
  have key : ∀ c ∈ (List.range' 0 256).map Char.ofNat, graphicL c = true → graphic c = true ∧ c ≠ '"' ∧ c ≠ '\\' := by decide +kernel
  exact key c (plain_mem h) hg

theorem plain_alnum {c : Char} (h : plain c) (hg : alnumL c = true) : extDigit c = true ∧ (letter c || digit c) = true := by
  have key : ∀ c ∈ (List.range' 0 256).map Char.ofNat, c ≠ 'Å' → alnumL c = true → extDigit c = true ∧ (letter c || digit c) = true := by decide +kernel
  exact key c (plain_mem h) h.2 hg

theorem plain_letter {c : Char} (h : plain c) (hg : letterL c = true) : letter c = true := by
  have key : ∀ c ∈ (List.range' 0 256).map Char.ofNat, letterL c = true → letter c = true := by decide +kernel
  exact key c (plain_mem h) hg

theorem block_text {u : Str} (h : L BLOCK_COMMENTr u) : ∃ v, u = '/' :: '*' :: (v ++ ['*', '/']) ∧ noBlockEnd v = true := by
  obtain ⟨a, b, rfl, h1, h2⟩ := L_seq.1 h
  rw [L_lit] at h1; subst h1
  obtain ⟨x, y, rfl, h3, h4⟩ := L_seq.1 h2
  obtain ⟨st, z, rfl, h5, h6⟩ := L_seq.1 h4
  obtain ⟨n, rfl⟩ := (L_run st).1 h5
  obtain ⟨c, rfl, hc⟩ := L_set.1 h6
  simp at hc; subst hc
  refine ⟨x ++ List.replicate n '*', ?_, ?_⟩
  · simp [List.replicate_succ']
  · have hstar : ∀ n, noBlockEnd (List.replicate n '*') = true := by
      intro n
      induction n with
      | zero => rfl
      | succ n ih =>
        rw [List.replicate_succ, noBlockEnd]
        · exact ih
        · cases n <;> simp [List.replicate_succ]
    have hone : ∀ {c : Char} {s : Str}, c ≠ '*' → noBlockEnd (c :: s) = noBlockEnd s := by
      intro c s hc
      rw [noBlockEnd]
      intro s' e; exact absurd e hc
    have hrun : ∀ (k : Nat) {c : Char} {s : Str}, c ≠ '*' → c ≠ '/' → noBlockEnd s = true → noBlockEnd (List.replicate k '*' ++ c :: s) = true := by
      intro k c s h1 h2 h3
      induction k with
      | zero => rw [List.replicate_zero, List.nil_append, hone h1, h3]
      | succ k ih =>
        rw [List.replicate_succ, List.cons_append, noBlockEnd]
        · exact ih
        · cases k with
          | zero => intro s' _ e; simp at e; exact h2 e.1
          | succ k => simp [List.replicate_succ]
    refine L_star_ind (P := fun x => noBlockEnd (x ++ List.replicate n '*') = true) (hstar n) ?_ h3
    intro u v hu _ ih
    rcases L_alt.1 hu with hu | hu
    · obtain ⟨c, rfl, hc⟩ := L_non.1 hu
      rw [List.append_assoc, List.singleton_append, hone (by simpa using hc), ih]
    · obtain ⟨st, z, rfl, h7, h8⟩ := L_seq.1 hu
      obtain ⟨k, rfl⟩ := (L_run st).1 h7
      obtain ⟨c, rfl, hc⟩ := L_non.1 h8
      simp at hc
      have := hrun (k + 1) hc.1 hc.2 ih
      simpa using this

/-- What the type of a chosen rule says about its text: not hidden. -/
theorem visible_elem {s w t : Str} {r : LRule} (hs : s = w ++ t) (hp : pick LRule.re (rulesAt s) (syms s) = some (r, w.length)) (hr : r ∈ rules)
    (hL : L r.re w) (hpl : ∀ c ∈ w, plain c) (hh : r.hide = false) :
    Element r.ty w ∨ (r.ty = .BASIC_IDENTIFIER ∧ BasicId w ∧ w.map Char.toLower ∈ psl) ∨ (r.ty, w) ∈ strays := by
  have hws : w <+: s := ⟨t, hs.symm⟩
  have hdec : Decimal w → r.ty ≠ .INTEGER ∧ r.ty ≠ .DIGIT := by
    intro h
    have hm := not_behind (d := ⟨.DECIMAL_LITERAL, DECIMAL_LITERALr, false⟩) (l1 := kwRules ++ midRules.take 2) (l2 := midRules.drop 3 ++ symRules)
      (by simp [rules, midRules]) (by simp) hp hws ((L_decimal w).2 h)
    have key : ∀ q ∈ kwRules ++ midRules.take 2 ++ [⟨.DECIMAL_LITERAL, DECIMAL_LITERALr, false⟩], q.ty ≠ .INTEGER ∧ q.ty ≠ .DIGIT := by decide +kernel
    exact key r hm
  have hmem := hr
  rw [rules, List.mem_append, List.mem_append] at hmem
  rcases hmem with (hm | hm) | hm
  · obtain ⟨k, -, rfl⟩ := List.mem_map.1 hm
    exact .inl ((L_kw k w).1 hL)
  · simp only [midRules, List.mem_cons, List.not_mem_nil, or_false] at hm
    rcases hm with rfl | rfl | rfl | rfl | rfl | rfl | rfl | rfl | rfl | rfl | rfl | rfl | rfl | rfl
    · obtain ⟨c, v, rfl, h1, h2⟩ := (L_basic w).1 hL
      have hb : BasicId (c :: v) := ⟨c, v, rfl, plain_letter (hpl c (by simp)) h1, groupTail_mono h2 fun d hd h => (plain_alnum (hpl d (by simp [hd])) h).2⟩
      by_cases hres : (c :: v).map Char.toLower ∈ reserved
      · refine .inr (.inl ⟨rfl, hb, ?_⟩)
        have key : ∀ x ∈ reserved, x ∈ psl ∨ ∃ k ∈ Kw.all, word k = x := by decide +kernel
        rcases key _ hres with h | ⟨k, -, h⟩
        · exact h
        · exfalso
          obtain ⟨a, b, e⟩ := List.append_of_mem (mem_kw k)
          have hm := not_behind (d := ⟨.kw k, ciLit k.text, false⟩) (l1 := a.map (fun k => (⟨.kw k, ciLit k.text, false⟩ : LRule)))
            (l2 := b.map (fun k => (⟨.kw k, ciLit k.text, false⟩ : LRule)) ++ (midRules ++ symRules)) (by rw [rules, kwRules, e]; simp) (by simp) hp hws
            ((L_kw k _).2 h.symm)
          simp at hm
      · exact .inl ⟨hb, hres⟩
    · obtain ⟨v, rfl, h1, h2⟩ := (L_extended w).1 hL
      exact .inl ⟨v, rfl, h1, Body_body (h2.mono fun c hc _ h => (plain_graphic (hpl c (by simp [hc])) h).1)⟩
    · exact .inl ((L_decimal w).1 hL)
    · exact absurd rfl (hdec (integer_decimal ((L_integer w).1 hL))).1
    · obtain ⟨b, i, f, x, rfl, h1, h2, h3, h4⟩ := (L_based w).1 hL
      refine .inl ⟨b, i, f, x, rfl, h1, grouped_mono' h2 fun c hc h => (plain_alnum (hpl c (by simp [hc])) h).1, ?_, h4⟩
      rcases h3 with rfl | ⟨j, rfl, hj⟩
      · exact .inl rfl
      · exact .inr ⟨j, rfl, grouped_mono' hj fun c hc h => (plain_alnum (hpl c (by simp [hc])) h).1⟩
    · obtain ⟨c, rfl, hc⟩ := (L_char w).1 hL
      refine .inl ⟨c, rfl, ?_⟩
      simp only [chrL, Bool.or_eq_true, beq_iff_eq] at hc
      rcases hc with h | rfl | rfl
      · exact (plain_graphic (hpl c (by simp)) h).1
      · decide
      · decide
    · obtain ⟨v, rfl, h2⟩ := (L_string w).1 hL
      refine .inl ⟨v, rfl, Body_body (h2.mono fun c hc _ h => ?_)⟩
      simp only [strL, Bool.or_eq_true, beq_iff_eq] at h
      rcases h with h | rfl
      · exact (plain_graphic (hpl c (by simp [hc])) h).1
      · decide
    · obtain ⟨n, b, v, rfl, h1, h2, h3⟩ := (L_bitString w).1 hL
      refine .inl ⟨n, b, v, rfl, h1, h2, ?_⟩
      rw [List.all_eq_true] at h3 ⊢
      intro c hc
      obtain ⟨g1, g2, g3⟩ := plain_graphic (hpl c (by simp [hc])) (h3 c hc)
      simp [g1, g2, g3]
    all_goals cases hh
  · rcases List.mem_cons.1 hm with rfl | hm
    · obtain ⟨c, rfl, hc⟩ := (cls_digit w).1 hL
      exact absurd rfl (hdec (integer_decimal (by simp [grouped, groupTail, hc]))).2
    · obtain ⟨x, hx, rfl⟩ := List.mem_map.1 hm
      rw [L_lit] at hL
      subst hL
      have key : ∀ x ∈ symTexts, x = (.SPACE_CHARACTER, [' ']) ∨ x ∈ strays ∨ x ∈ delimiters := by decide +kernel
      rcases key x hx with rfl | h | h
      · exfalso
        have hm := not_behind (d := ⟨.SPACE, plus (set [' ']), true⟩) (l1 := kwRules ++ midRules.take 11) (l2 := midRules.drop 12 ++ symRules)
          (by simp [rules, midRules]) (by simp) hp hws ((L_run _).2 ⟨0, rfl⟩)
        have key : ∀ q ∈ kwRules ++ midRules.take 11 ++ [⟨.SPACE, plus (set [' ']), true⟩], q.ty ≠ .SPACE_CHARACTER := by decide +kernel
        exact key _ hm rfl
      · exact .inr (.inr h)
      · left
        simp only [delimiters, List.mem_cons, List.not_mem_nil, or_false] at h
        rcases h with rfl | rfl | rfl | rfl | rfl | rfl | rfl | rfl | rfl | rfl | rfl | rfl | rfl | rfl | rfl | rfl | rfl | rfl | rfl | rfl | rfl | rfl |
          rfl | rfl | rfl | rfl | rfl | rfl | rfl | rfl | rfl | rfl | rfl | rfl | rfl | rfl | rfl | rfl <;> (simp only [Element]; decide)

theorem covered_blanks {c : Char} (hc : c ∈ [' ', '\t', '\n', '\r']) {s : Str} {ts : List (VT × Str)} (h : Covered s ts) : ∀ n, Covered (List.replicate n c ++ s) ts
  | 0 => h
  | n + 1 => .blank hc (covered_blanks hc h n)

/-- The lexer covers the text. -/
theorem lex_covered {s : Str} (hpl : ∀ c ∈ s, plain c) {toks : List VTok} (h : lex s = some toks) : ∃ ts, Covered s ts ∧ toks = ts.map tokenOf := by
  generalize hk : s.length = k
  induction k using Nat.strong_induction_on generalizing s toks with
  | _ k ih =>
    by_cases hs : s = []
    · subst hs
      cases h
      exact ⟨[], .nil, rfl⟩
    · cases hp : pick LRule.re (rulesAt s) (syms s) with
      | none => rw [lex_none hs hp] at h; cases h
      | some x =>
        obtain ⟨r, n⟩ := x
        obtain ⟨hr, w, t, e, hn, hw, hL, hlong⟩ := chosen hp
        subst hn
        rw [lex_step hs hp] at h
        have hdrop : s.drop w.length = t := by rw [e, List.drop_left]
        have htake : s.take w.length = w := by rw [e, List.take_left]
        rw [hdrop, htake] at h
        cases ht : lex t with
        | none => rw [ht] at h; cases h
        | some toks' =>
          rw [ht] at h
          simp only [Option.some.injEq] at h
          have hwl : 0 < w.length := List.length_pos_iff.2 hw
          obtain ⟨ts, hc, rfl⟩ := ih t.length (by rw [← hk, e, List.length_append]; omega) (fun c hc => hpl c (by simp [e, hc])) ht rfl
          cases hh : r.hide with
          | false =>
            rw [hh] at h
            refine ⟨(r.ty, w) :: ts, ?_, ?_⟩
            · have hv := visible_elem e hp hr hL (fun c hc => hpl c (by simp [e, hc])) hh
              rw [e]
              exact .elem hv hc
            · rw [← h, utf8_bytes]; rfl
          | true =>
            rw [hh] at h
            refine ⟨ts, ?_, by simpa using h.symm⟩
            have hmem := hr
            rw [rules, List.mem_append, List.mem_append] at hmem
            rcases hmem with (hm | hm) | hm
            · obtain ⟨k, -, rfl⟩ := List.mem_map.1 hm
              cases hh
            · simp only [midRules, List.mem_cons, List.not_mem_nil, or_false] at hm
              rcases hm with rfl | rfl | rfl | rfl | rfl | rfl | rfl | rfl | rfl | rfl | rfl | rfl | rfl | rfl <;> try cases hh
              · obtain ⟨v, rfl, hv⟩ := (L_comment w).1 hL
                rw [e]
                refine .line hv ?_ hc
                intro c hc'
                by_contra hne
                cases t with
                | nil => cases hc'
                | cons d t =>
                  simp at hc'
                  subst hc'
                  have := longest_bound hlong (u := '-' :: '-' :: (v ++ [d])) (by rw [e]; exact ⟨t, by simp⟩)
                    ((L_comment _).2 ⟨_, rfl, by simpa [hv] using fun e => hne e.symm⟩)
                  simp at this
                  omega
              · obtain ⟨v, rfl, hv⟩ := block_text hL
                rw [e]
                have := Covered.block hv hc
                simpa using this
              · obtain ⟨n, rfl⟩ := (L_run w).1 hL
                rw [e]; exact covered_blanks (by decide) hc _
              · obtain ⟨n, rfl⟩ := (L_run w).1 hL
                rw [e]; exact covered_blanks (by decide) hc _
              · obtain ⟨c, rfl, hc'⟩ := L_set.1 hL
                simp at hc'; subst hc'
                rw [e]; exact .blank (by decide) hc
              · obtain ⟨c, rfl, hc'⟩ := L_set.1 hL
                simp at hc'; subst hc'
                rw [e]; exact .blank (by decide) hc
            · rcases List.mem_cons.1 hm with rfl | hm
              · cases hh
              · obtain ⟨x, -, rfl⟩ := List.mem_map.1 hm
                cases hh

end Verif.Vhdl
