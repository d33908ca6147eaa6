import Verif.VhdlElemLemmas
/-!
# Which rule of the VHDL lexer takes a delimiter, a literal in quotes, a separator or a comment
-/
namespace Verif.Vhdl
open Verif.Antlr Verif.Antlr.Re Verif.Spec Verif.Spec.Lrm

theorem re_ty {c : Char} {P : VT → Bool} (hk : ([c].all fun c => rules.all fun q => q.re.der (some c) == Re.empty || P q.ty) = true) {s : Str}
    {q : LRule} (hq : q ∈ rules) {u : Str} (hu : u <+: c :: s) (h : L q.re u) : P q.ty = true ∧ ∃ v, u = c :: v ∧ v <+: s := by
  obtain ⟨v, rfl, hv⟩ := pref_head (not_nil hq h) hu
  exact ⟨alive hk (by simp) hq h, v, rfl, hv⟩

/-! ## Extended identifiers and strings -/

theorem pick_extended {w s : Str} (hw : ExtId w) (hlim : '"' ∉ w) (ha : NotHead (· == '\\') s) :
    pick LRule.re (rulesAt (w ++ s)) (syms (w ++ s)) = some (⟨.EXTENDED_IDENTIFIER, EXTENDED_IDENTIFIERr, false⟩, w.length) := by
  obtain ⟨v, rfl, hne, hb⟩ := hw
  have hb' : Body '\\' graphicL v := (body_Body hb).mono fun c hc h1 h2 => graphic_lexer h2 (by rintro rfl; exact hlim (by simp [hc])) h1
  have hk : (['\\'].all fun c => rules.all fun q => q.re.der (some c) == Re.empty || (q.ty == .EXTENDED_IDENTIFIER || q.ty == .BACKSLASH)) = true := by
    decide +kernel
  refine choose (l1 := kwRules ++ midRules.take 1) (l2 := midRules.drop 2 ++ symRules) (by simp [rules, midRules]) (fun e => by cases e)
    ((L_extended _).2 ⟨v, rfl, hne, hb'⟩) ?_ ?_
  · intro q hq _ u hu h
    obtain ⟨ht, u', e, hu'⟩ := re_ty (P := fun t => t == .EXTENDED_IDENTIFIER || t == .BACKSLASH) hk hq (s := v ++ ['\\'] ++ s) hu h
    simp only [Bool.or_eq_true, beq_iff_eq] at ht
    rcases ht with ht | ht
    · rw [re_of (X := EXTENDED_IDENTIFIERr) (by decide +kernel) hq ht] at h
      obtain ⟨v', rfl, -, h'⟩ := (L_extended u).1 h
      rw [← (List.cons.inj e).2] at hu'
      have := hb'.upto ha h' (by simpa using hu')
      simp; omega
    · rw [re_of (X := lit ['\\']) (by decide +kernel) hq ht, L_lit] at h
      subst h; simp
  · intro q hq h
    have hq' : q ∈ rules := by rw [rules, ← List.take_append_drop 1 midRules]; simp only [List.mem_append] at hq ⊢; tauto
    have ht := alive (P := fun t => t == .EXTENDED_IDENTIFIER || t == .BACKSLASH) hk (by simp) hq' h
    rcases List.mem_append.1 hq with hq | hq
    · obtain ⟨j, -, rfl⟩ := List.mem_map.1 hq
      simp at ht
    · simp only [midRules, List.take, List.mem_cons, List.not_mem_nil, or_false] at hq
      subst hq; simp at ht

theorem pick_string {w s : Str} (hw : StringLit w) (ha : NotHead (· == '"') s) :
    pick LRule.re (rulesAt (w ++ s)) (syms (w ++ s)) = some (⟨.STRING_LITERAL, STRING_LITERALr, false⟩, w.length) := by
  obtain ⟨v, rfl, hb⟩ := hw
  have hb' : Body '"' strL v := (body_Body hb).mono fun c hc h1 h2 => by
    by_cases e : c = '\\'
    · simp [strL, e]
    · simp [strL, graphic_lexer h2 h1 e]
  have hk : (['"'].all fun c => rules.all fun q => q.re.der (some c) == Re.empty || (q.ty == .STRING_LITERAL || q.ty == .DBLQUOTE)) = true := by
    decide +kernel
  refine choose (l1 := kwRules ++ midRules.take 6) (l2 := midRules.drop 7 ++ symRules) (by simp [rules, midRules]) (fun e => by cases e)
    ((L_string _).2 ⟨v, rfl, hb'⟩) ?_ ?_
  · intro q hq _ u hu h
    obtain ⟨ht, u', e, hu'⟩ := re_ty (P := fun t => t == .STRING_LITERAL || t == .DBLQUOTE) hk hq (s := v ++ ['"'] ++ s) hu h
    simp only [Bool.or_eq_true, beq_iff_eq] at ht
    rcases ht with ht | ht
    · rw [re_of (X := STRING_LITERALr) (by decide +kernel) hq ht] at h
      obtain ⟨v', rfl, h'⟩ := (L_string u).1 h
      rw [← (List.cons.inj e).2] at hu'
      have := hb'.upto ha h' (by simpa using hu')
      simp; omega
    · rw [re_of (X := lit ['"']) (by decide +kernel) hq ht, L_lit] at h
      subst h; simp
  · intro q hq h
    have hq' : q ∈ rules := by rw [rules, ← List.take_append_drop 6 midRules]; simp only [List.mem_append] at hq ⊢; tauto
    have ht := alive (P := fun t => t == .STRING_LITERAL || t == .DBLQUOTE) hk (by simp) hq' h
    rcases List.mem_append.1 hq with hq | hq
    · obtain ⟨j, -, rfl⟩ := List.mem_map.1 hq
      simp at ht
    · simp only [midRules, List.take, List.mem_cons, List.not_mem_nil, or_false] at hq
      rcases hq with rfl | rfl | rfl | rfl | rfl | rfl <;> simp at ht

/-! ## Apostrophes -/

theorem live_tick : (['\''].all fun c => rules.all fun q => q.re.der (some c) == Re.empty || (q.ty == .CHARACTER_LITERAL || q.ty == .APOSTROPHE)) = true := by
  decide +kernel

theorem pick_char {w s : Str} (hw : CharLit w) (hlim : ¬ (w = ['\'', '(', '\''] ∧ s[1]? = some '\'')) :
    pick LRule.re (rulesAt (w ++ s)) (syms (w ++ s)) = some (⟨.CHARACTER_LITERAL, CHARACTER_LITERALr, false⟩, w.length) := by
  obtain ⟨c, rfl, hc⟩ := hw
  have hc' : chrL c = true := by
    by_cases e1 : c = '"'
    · simp [chrL, e1]
    · by_cases e2 : c = '\\'
      · simp [chrL, e2]
      · simp [chrL, graphic_lexer hc e1 e2]
  refine choose (l1 := kwRules ++ midRules.take 5) (l2 := midRules.drop 6 ++ symRules) (by simp [rules, midRules]) (fun _ => ?_)
    ((L_char _).2 ⟨c, rfl, hc'⟩) ?_ ?_
  · simp only [charGuard, Bool.or_eq_true, bne_iff_ne, ne_eq]
    by_cases e : c = '('
    · subst e
      right
      intro e'
      exact hlim ⟨rfl, e'⟩
    · left
      simpa using e
  · intro q hq _ u hu h
    obtain ⟨ht, u', e, hu'⟩ := re_ty (P := fun t => t == .CHARACTER_LITERAL || t == .APOSTROPHE) live_tick hq (s := [c, '\''] ++ s) hu h
    simp only [Bool.or_eq_true, beq_iff_eq] at ht
    rcases ht with ht | ht
    · rw [re_of (X := CHARACTER_LITERALr) (by decide +kernel) hq ht] at h
      obtain ⟨d, rfl, -⟩ := (L_char u).1 h
      simp
    · rw [re_of (X := lit ['\'']) (by decide +kernel) hq ht, L_lit] at h
      subst h; simp
  · intro q hq h
    have hq' : q ∈ rules := by rw [rules, ← List.take_append_drop 5 midRules]; simp only [List.mem_append] at hq ⊢; tauto
    have ht := alive (P := fun t => t == .CHARACTER_LITERAL || t == .APOSTROPHE) live_tick (by simp) hq' h
    rcases List.mem_append.1 hq with hq | hq
    · obtain ⟨j, -, rfl⟩ := List.mem_map.1 hq
      simp at ht
    · simp only [midRules, List.take, List.mem_cons, List.not_mem_nil, or_false] at hq
      rcases hq with rfl | rfl | rfl | rfl | rfl <;> simp at ht

/-! ## Delimiters -/

/-- The first characters of the delimiters. -/
def delimChars : List Char := ['&', '\'', '(', ')', '*', '+', ',', '-', '.', '/', ':', ';', '<', '=', '>', '`', '|', '[', ']', '?', '@', '^']

def delimTy (t : VT) : Bool := t == .COMMENT || t == .BLOCK_COMMENT || t == .CHARACTER_LITERAL || delimiters.any fun x => x.1 == t

theorem live_delim : (delimChars.all fun c => rules.all fun q => q.re.der (some c) == Re.empty || delimTy q.ty) = true := by decide +kernel

def delimRe (q : LRule) : Bool := delimiters.all fun x => x.1 != q.ty || decide (q.re = lit x.2)
theorem delim_re : rules.all delimRe = true := by decide +kernel
theorem re_delim {q : LRule} (hq : q ∈ rules) {x : VT × Str} (hx : x ∈ delimiters) (ht : q.ty = x.1) : q.re = lit x.2 := by
  have := List.all_eq_true.1 (List.all_eq_true.1 delim_re q hq) x hx
  simpa [ht] using this

theorem delim_sym : ∀ x ∈ delimiters, x ∈ symTexts := by decide +kernel
theorem sym_nodup : (symTexts.map Prod.snd).Nodup := by decide +kernel
theorem delim_head : ∀ x ∈ delimiters, ∃ c ∈ delimChars, x.2.head? = some c := by decide +kernel
theorem delim_no : ∀ x ∈ delimiters, x.1 ≠ .CHARACTER_LITERAL ∧ x.1 ≠ .COMMENT ∧ x.1 ≠ .BLOCK_COMMENT := by decide +kernel
theorem L_block_head {u : Str} (h : L BLOCK_COMMENTr u) : ∃ v, u = '/' :: '*' :: v := by
  obtain ⟨a, b, rfl, h1, -⟩ := L_seq.1 h
  rw [L_lit] at h1; subst h1
  exact ⟨b, rfl⟩

/-- A delimiter. -/
theorem pick_delim {t : VT} {w s : Str} (hw : (t, w) ∈ delimiters) (h1 : ∀ d ∈ delimiters, d.2 <+: w ++ s → d.2.length ≤ w.length)
    (h2 : ¬ ['-', '-'] <+: w ++ s) (h3 : ¬ ['/', '*'] <+: w ++ s)
    (h4 : t = .APOSTROPHE → s[1]? = some '\'' → s[0]? = some '(' ∧ s[3]? = some '\'') :
    pick LRule.re (rulesAt (w ++ s)) (syms (w ++ s)) = some (⟨t, lit w, false⟩, w.length) := by
  obtain ⟨a, b, e⟩ := List.append_of_mem (delim_sym _ hw)
  have hnd := sym_nodup
  rw [e] at hnd
  have hk : ∀ x ∈ a, x.2 ≠ w := fun x hx he => by
    rw [List.map_append, List.map_cons, List.nodup_append] at hnd
    exact hnd.2.2 x.2 (List.mem_map_of_mem hx) x.2 (by simp [he]) rfl
  have hr : rules = (kwRules ++ midRules ++ ⟨.DIGIT, DIGITr, false⟩ :: a.map (fun x => (⟨x.1, lit x.2, false⟩ : LRule))) ++ ⟨t, lit w, false⟩ ::
      (b.map (fun x => (⟨x.1, lit x.2, false⟩ : LRule))) := by
    rw [rules, symRules, e]; simp
  obtain ⟨c, hc, hc'⟩ := delim_head _ hw
  have hno := delim_no _ hw
  obtain ⟨w', rfl⟩ : ∃ w', w = c :: w' := by
    cases w with
    | nil => simp at hc'
    | cons d w' => simp at hc'; exact ⟨w', by rw [hc']⟩
  have hty : ∀ {q : LRule}, q ∈ rules → (q.ty = .CHARACTER_LITERAL → charGuard (c :: w' ++ s) = true) → ∀ {u : Str}, u <+: c :: w' ++ s → L q.re u →
      (q.ty, u) ∈ delimiters := by
    intro q hq hg u hu h
    obtain ⟨v, rfl, hv⟩ := pref_head (not_nil hq h) (s := w' ++ s) hu
    have ht : delimTy q.ty = true := alive live_delim hc hq h
    simp only [delimTy, Bool.or_eq_true, beq_iff_eq, List.any_eq_true] at ht
    rcases ht with ((ht | ht) | ht) | ⟨x, hx, ht⟩
    · rw [re_of (X := COMMENTr) (by decide +kernel) hq ht] at h
      obtain ⟨v', e', -⟩ := (L_comment _).1 h
      rw [e'] at hu
      exact absurd ((List.prefix_append ['-', '-'] v').trans hu) h2
    · rw [re_of (X := BLOCK_COMMENTr) (by decide +kernel) hq ht] at h
      obtain ⟨v', e'⟩ := L_block_head h
      rw [e'] at hu
      exact absurd ((List.prefix_append ['/', '*'] v').trans hu) h3
    · exfalso
      have hg := hg ht
      rw [re_of (X := CHARACTER_LITERALr) (by decide +kernel) hq ht] at h
      obtain ⟨d, e', -⟩ := (L_char _).1 h
      have ec := (List.cons.inj e').1
      subst ec
      have e2 := (List.cons.inj e').2
      subst e2
      have key : ∀ x ∈ delimiters, x.2.head? = some '\'' → x = (.APOSTROPHE, ['\'']) := by decide +kernel
      have e3 := key _ hw rfl
      simp only [Prod.mk.injEq, List.cons.injEq, true_and] at e3
      obtain ⟨rfl, rfl⟩ := e3
      obtain ⟨r, er⟩ := hv
      simp only [List.nil_append] at er
      subst er
      obtain ⟨g1, g2⟩ := h4 rfl rfl
      simp only [charGuard, Bool.or_eq_true, bne_iff_ne, ne_eq] at hg
      rcases hg with hg | hg
      · exact hg g1
      · exact hg g2
    · rw [re_delim hq hx ht.symm, L_lit] at h
      rw [← ht, h]; exact hx
  refine choose hr (fun e => absurd e hno.1) (L_lit.2 rfl) ?_ ?_
  · intro q hq hg u hu h
    exact h1 _ (hty hq hg hu h) hu
  · intro q hq h
    have hq' : q ∈ rules := by rw [hr]; exact List.mem_append_left _ hq
    rcases List.mem_append.1 hq with hq | hq
    · by_cases hch : q.ty = .CHARACTER_LITERAL
      · rw [re_of (X := CHARACTER_LITERALr) (by decide +kernel) hq' hch] at h
        obtain ⟨d, e', -⟩ := (L_char _).1 h
        have key : ∀ x ∈ delimiters, x.2.head? = some '\'' → x = (.APOSTROPHE, ['\'']) := by decide +kernel
        have e3 := key _ hw (by rw [e']; rfl)
        rw [e'] at e3
        simp at e3
      · have := hty hq' (fun e => absurd e hch) (List.prefix_append _ _) h
        have key : ∀ x ∈ delimiters, ∀ q ∈ kwRules ++ midRules, q.ty ≠ x.1 := by decide +kernel
        exact key _ this q hq rfl
    · rcases List.mem_cons.1 hq with rfl | hq
      · have := hty hq' (fun e => by cases e) (List.prefix_append _ _) h
        have key : ∀ x ∈ delimiters, x.1 ≠ .DIGIT := by decide +kernel
        exact key _ this rfl
      · obtain ⟨x, hx, rfl⟩ := List.mem_map.1 hq
        rw [L_lit] at h
        exact hk x hx h.symm

/-! ## Separators -/

theorem pick_run {c : Char} {t : VT} {l1 l2 : List LRule} (hr : rules = l1 ++ ⟨t, plus (set [c]), true⟩ :: l2) (hnc : t ≠ .CHARACTER_LITERAL)
    (hl1 : l1.all (fun q => q.re.der (some c) == Re.empty) = true)
    (hall : rules.all (fun q => q.re.der (some c) == Re.empty || (decide (q.re = plus (set [c])) || decide (q.re = set [c]))) = true)
    {n : Nat} {s : Str} (hs : NotHead (· == c) s) :
    pick LRule.re (rulesAt (List.replicate (n + 1) c ++ s)) (syms (List.replicate (n + 1) c ++ s)) =
      some (⟨t, plus (set [c]), true⟩, (List.replicate (n + 1) c).length) := by
  have hdead : ∀ {r : Re} {u : Str}, r.der (some c) = .empty → ¬ L r (c :: u) := by
    intro r u h h'
    have h2 : Matches (r.der (some c)) (u.map some) := matches_der.2 h'
    rw [h] at h2
    exact matches_empty h2
  refine choose hr (fun e => absurd e hnc) ((L_run _).2 ⟨n, rfl⟩) ?_ ?_
  · intro q hq _ u hu h
    obtain ⟨v, rfl, -⟩ := pref_head (not_nil hq h) (c := c) (s := List.replicate n c ++ s) hu
    have := List.all_eq_true.1 hall q hq
    simp only [Bool.or_eq_true, beq_iff_eq, decide_eq_true_eq] at this
    rcases this with h1 | h1 | h1
    · exact absurd h (hdead h1)
    · rw [h1, L_run] at h
      obtain ⟨m, e⟩ := h
      refine pref_stop (p := (· == c)) hu ?_ hs
      rw [e]; simp
    · rw [h1, L_set] at h
      obtain ⟨d, e, -⟩ := h
      rw [e]; simp
  · intro q hq h
    have := List.all_eq_true.1 hl1 q hq
    exact hdead (by simpa using this) h

theorem replicate_head (c : Char) (s : Str) : ∃ n s', s = List.replicate n c ++ s' ∧ NotHead (· == c) s' := by
  induction s with
  | nil => exact ⟨0, [], rfl, by simp [NotHead]⟩
  | cons d s ih =>
    by_cases e : d = c
    · subst e
      obtain ⟨n, s', rfl, h⟩ := ih
      exact ⟨n + 1, s', rfl, h⟩
    · exact ⟨0, d :: s, rfl, by simpa [NotHead] using e⟩

/-- A hidden match. -/
theorem lex_hidden {w s : Str} (hw : w ≠ []) {r : LRule} (hp : pick LRule.re (rulesAt (w ++ s)) (syms (w ++ s)) = some (r, w.length)) (hr : r.hide = true) :
    lex (w ++ s) = lex s := by
  rw [lex_step (by simp [hw]) hp, List.drop_left]
  cases lex s <;> simp [hr]

/-- A visible match. -/
theorem lex_visible {w s : Str} (hw : w ≠ []) {r : LRule} (hp : pick LRule.re (rulesAt (w ++ s)) (syms (w ++ s)) = some (r, w.length)) (hr : r.hide = false) :
    lex (w ++ s) = (lex s).map fun ts => ⟨r.ty, utf8 w⟩ :: ts := by
  rw [lex_step (by simp [hw]) hp, List.drop_left, List.take_left]
  cases lex s <;> simp [hr]

theorem lex_run {c : Char} {t : VT} {l1 l2 : List LRule} (hr : rules = l1 ++ ⟨t, plus (set [c]), true⟩ :: l2) (hnc : t ≠ .CHARACTER_LITERAL)
    (hl1 : l1.all (fun q => q.re.der (some c) == Re.empty) = true)
    (hall : rules.all (fun q => q.re.der (some c) == Re.empty || (decide (q.re = plus (set [c])) || decide (q.re = set [c]))) = true) (s : Str) :
    lex (c :: s) = lex s := by
  obtain ⟨n, s', rfl, hs⟩ := replicate_head c s
  have h : ∀ n, lex (List.replicate (n + 1) c ++ s') = lex s' := fun n =>
    lex_hidden (by simp [List.replicate_succ]) (pick_run hr hnc hl1 hall hs) rfl
  have h1 := h n
  rw [List.replicate_succ, List.cons_append] at h1
  rw [h1]
  cases n with
  | zero => rfl
  | succ n => exact (h n).symm

theorem lex_space (s : Str) : lex (' ' :: s) = lex s :=
  lex_run (t := .SPACE) (l1 := kwRules ++ midRules.take 11) (l2 := midRules.drop 12 ++ symRules) (by simp [rules, midRules]) (by decide) (by decide +kernel)
    (by decide +kernel) s
theorem lex_tab (s : Str) : lex ('\t' :: s) = lex s :=
  lex_run (t := .TAB) (l1 := kwRules ++ midRules.take 10) (l2 := midRules.drop 11 ++ symRules) (by simp [rules, midRules]) (by decide) (by decide +kernel)
    (by decide +kernel) s

theorem lex_one {c : Char} {t : VT} {l1 l2 : List LRule} (hr : rules = l1 ++ ⟨t, set [c], true⟩ :: l2) (hnc : t ≠ .CHARACTER_LITERAL)
    (hl1 : l1.all (fun q => q.re.der (some c) == Re.empty) = true)
    (hall : rules.all (fun q => q.re.der (some c) == Re.empty || decide (q.re = set [c])) = true) (s : Str) :
    lex (c :: s) = lex s := by
  have hdead : ∀ {r : Re} {u : Str}, r.der (some c) = .empty → ¬ L r (c :: u) := by
    intro r u h h'
    have h2 : Matches (r.der (some c)) (u.map some) := matches_der.2 h'
    rw [h] at h2
    exact matches_empty h2
  refine lex_hidden (w := [c]) (r := ⟨t, set [c], true⟩) (by simp) (choose hr (fun e => absurd e hnc) (L_set.2 ⟨c, rfl, by simp⟩) ?_ ?_) rfl
  · intro q hq _ u hu h
    obtain ⟨v, rfl, -⟩ := pref_head (not_nil hq h) (c := c) (s := s) hu
    have := List.all_eq_true.1 hall q hq
    simp only [Bool.or_eq_true, beq_iff_eq, decide_eq_true_eq] at this
    rcases this with h1 | h1
    · exact absurd h (hdead h1)
    · rw [h1, L_set] at h
      obtain ⟨d, e, -⟩ := h
      rw [e]; simp
  · intro q hq h
    have := List.all_eq_true.1 hl1 q hq
    exact hdead (by simpa using this) h

theorem lex_lf (s : Str) : lex ('\n' :: s) = lex s :=
  lex_one (t := .NEWLINE) (l1 := kwRules ++ midRules.take 12) (l2 := midRules.drop 13 ++ symRules) (by simp [rules, midRules]) (by decide) (by decide +kernel)
    (by decide +kernel) s
theorem lex_cr (s : Str) : lex ('\r' :: s) = lex s :=
  lex_one (t := .CR) (l1 := kwRules ++ midRules.take 13) (l2 := symRules) (by simp [rules, midRules]) (by decide) (by decide +kernel)
    (by decide +kernel) s

/-! ## Comments -/

theorem live_minus : (['-'].all fun c => rules.all fun q => q.re.der (some c) == Re.empty || (q.ty == .COMMENT || q.ty == .MINUS)) = true := by
  decide +kernel
theorem live_slash : (['/'].all fun c => rules.all fun q => q.re.der (some c) == Re.empty || (q.ty == .BLOCK_COMMENT || (q.ty == .DIV || q.ty == .NE))) = true := by
  decide +kernel

theorem lex_comment {v s : Str} (hv : '\n' ∉ v) (hs : s = [] ∨ ∃ s', s = '\n' :: s') : lex ('-' :: '-' :: (v ++ s)) = lex s := by
  have hc : s.head? = none ∨ s.head? = some '\n' := by rcases hs with rfl | ⟨s', rfl⟩ <;> simp
  refine lex_hidden (w := '-' :: '-' :: v) (r := ⟨.COMMENT, COMMENTr, true⟩) (by simp)
    (choose (l1 := kwRules ++ midRules.take 8) (l2 := midRules.drop 9 ++ symRules) (by simp [rules, midRules]) (fun e => by cases e)
    ((L_comment _).2 ⟨v, rfl, hv⟩) ?_ ?_) rfl
  · intro q hq _ u hu h
    obtain ⟨ht, u', e, hu'⟩ := re_ty (P := fun t => t == .COMMENT || t == .MINUS) live_minus hq (s := '-' :: v ++ s) hu h
    simp only [Bool.or_eq_true, beq_iff_eq] at ht
    rcases ht with ht | ht
    · rw [re_of (X := COMMENTr) (by decide +kernel) hq ht] at h
      obtain ⟨v', rfl, h'⟩ := (L_comment u).1 h
      refine pref_stop (p := (· != '\n')) hu ?_ ?_
      · rw [List.all_cons, List.all_cons, List.all_eq_true.2]
        · rfl
        · intro d hd; simp only [bne_iff_ne]; rintro rfl; exact h' hd
      · intro d hd
        rcases hc with hc | hc
        · rw [hc] at hd; cases hd
        · rw [hc] at hd; cases hd; rfl
    · rw [re_of (X := lit ['-']) (by decide +kernel) hq ht, L_lit] at h
      subst h; simp
  · intro q hq h
    have hq' : q ∈ rules := by rw [rules, ← List.take_append_drop 8 midRules]; simp only [List.mem_append] at hq ⊢; tauto
    have ht := alive (P := fun t => t == .COMMENT || t == .MINUS) live_minus (by simp) hq' h
    rcases List.mem_append.1 hq with hq | hq
    · obtain ⟨j, -, rfl⟩ := List.mem_map.1 hq
      simp at ht
    · simp only [midRules, List.take, List.mem_cons, List.not_mem_nil, or_false] at hq
      rcases hq with rfl | rfl | rfl | rfl | rfl | rfl | rfl | rfl <;> simp at ht

theorem longest_bound {r : Re} {s u : Str} {n : Nat} (h : longest r (syms s) = some n) (hu : u <+: s) (hL : L r u) : u.length ≤ n := by
  by_contra hc
  have hle := hu.length_le
  refine (longest_some_iff.1 h).2.2 u.length (by omega) (by simp [syms]; omega) ?_
  rw [take_syms hle, ← List.prefix_iff_eq_take.1 hu]
  exact hL

theorem lex_block {v s : Str} (hv : noBlockEnd v = true) : lex ('/' :: '*' :: (v ++ '*' :: '/' :: s)) = lex s := by
  have hne : Pp.noEnd v = true := by
    have e : ∀ v, Pp.noEnd v = noBlockEnd v := by
      intro v
      fun_induction noBlockEnd v with
      | case1 s => rfl
      | case2 c s h ih => rw [Pp.noEnd, ih]; exact h
      | case3 => rfl
    rw [e, hv]
  have hl := Pp.longest_comment hne s
  have e : '/' :: '*' :: (v ++ '*' :: '/' :: s) = ('/' :: '*' :: (v ++ ['*', '/'])) ++ s := by simp
  have hl' : longest BLOCK_COMMENTr (syms (('/' :: '*' :: (v ++ ['*', '/'])) ++ s)) = some ('/' :: '*' :: (v ++ ['*', '/'])).length := hl
  rw [e]
  refine lex_hidden (r := ⟨.BLOCK_COMMENT, BLOCK_COMMENTr, true⟩) (by simp)
    (choose (l1 := kwRules ++ midRules.take 9) (l2 := midRules.drop 10 ++ symRules) (by simp [rules, midRules]) (fun e => by cases e) ?_ ?_ ?_) rfl
  · have := (longest_some_iff.1 hl').2.1
    rw [take_syms (by simp), List.take_left] at this
    exact this
  · intro q hq _ u hu h
    obtain ⟨ht, u', e, hu'⟩ := re_ty (P := fun t => t == .BLOCK_COMMENT || (t == .DIV || t == .NE)) live_slash hq (s := '*' :: (v ++ ['*', '/']) ++ s) hu h
    simp only [Bool.or_eq_true, beq_iff_eq] at ht
    rcases ht with ht | ht | ht
    · rw [re_of (X := BLOCK_COMMENTr) (by decide +kernel) hq ht] at h
      exact longest_bound hl' hu h
    · rw [re_of (X := lit ['/']) (by decide +kernel) hq ht, L_lit] at h
      subst h; simp
    · rw [re_of (X := lit ['/', '=']) (by decide +kernel) hq ht, L_lit] at h
      subst h; simp
  · intro q hq h
    have hq' : q ∈ rules := by rw [rules, ← List.take_append_drop 9 midRules]; simp only [List.mem_append] at hq ⊢; tauto
    have ht := alive (P := fun t => t == .BLOCK_COMMENT || (t == .DIV || t == .NE)) live_slash (by simp) hq' h
    rcases List.mem_append.1 hq with hq | hq
    · obtain ⟨j, -, rfl⟩ := List.mem_map.1 hq
      simp at ht
    · simp only [midRules, List.take, List.mem_cons, List.not_mem_nil, or_false] at hq
      rcases hq with rfl | rfl | rfl | rfl | rfl | rfl | rfl | rfl | rfl <;> simp at ht

end Verif.Vhdl
