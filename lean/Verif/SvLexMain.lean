import Verif.SvLexMax
/-!
# The SystemVerilog lexer on a divided text, and the division of a text by the lexer
-/
namespace Verif.Sv
open Verif.Antlr Verif.Antlr.Re Verif.Spec Verif.Spec.SvLex
open Verif.Vhdl (L noEof L_eps L_set L_non L_rng L_seq L_alt L_opt L_star L_lit L_alts L_empty Cls take_syms longest_le longest_max longest_none' pick_filter pick_max
  split_at longer pref_head longest_bound longest_ge pick_skip)

theorem nextMode_eq (m : Bool) (t : LTy) : nextMode m t = tableAfter m t := by
  cases m with
  | false => simp [nextMode, tableAfter]
  | true =>
    simp only [nextMode, tableAfter, if_true, Bool.true_and]
    by_cases h : t = .kw (c! "table")
    · subst h; decide
    · simp [h]

/-- Hidden rules by their types. -/
def hiddenTy (t : LTy) : Bool := t == .ONE_LINE_COMMENT || t == .BLOCK_COMMENT || t == .WHITE_SPACE
theorem rules_hide : (rules.all fun q => q.hide == hiddenTy q.ty) = true := by decide +kernel
theorem tableRules_hide : (tableRules.all fun q => q.hide == hiddenTy q.ty) = true := by decide +kernel
theorem hide_eq {v : Nat} {m : Bool} {q : SRule} (h : q ∈ rulesOf v m) : q.hide = hiddenTy q.ty := by
  rcases mem_rulesOf h with ⟨-, h⟩ | ⟨-, h, -⟩
  · simpa using List.all_eq_true.1 tableRules_hide q h
  · simpa using List.all_eq_true.1 rules_hide q h

/-- Texts of the rules. -/
def RText (v : Version) (m : Bool) (t : LTy) (u : Str) : Prop := if m = true then TableText t u else Text v t u

theorem rtext {v : Version} {m : Bool} {q : SRule} (h : q ∈ rulesOf v.code m) (hn : noEof q.re = true) {u : Str} (hL : L q.re u) : RText v m q.ty u := by
  rcases mem_rulesOf h with ⟨rfl, h⟩ | ⟨rfl, h, hs⟩
  · exact table_of_rule h hn hL
  · exact text_of_rule h hs hn hL

theorem noEof_lit : ∀ s : Str, noEof (lit s) = true
  | [] => rfl
  | [_] => rfl
  | _ :: d :: s => by rw [lit]; simp [noEof, noEof_lit (d :: s)]; simp

/-! ## Elements outside of tables -/

section
variable {v : Version} {t : LTy} {w s : Str}

theorem max_plain {t' : LTy} {u : Str} (ht : Plain v t w) (ha : Apart v false w s) (hr : Limits.supported.elem v false t w s) (hu : u <+: w ++ s)
    (h : Text v t' u) : u.length ≤ w.length := by
  have hp : ∀ {t'}, Plain v t' u → u.length ≤ w.length := fun h => ha.1 _ u h hu
  have hident : Ident u → u.length ≤ w.length := fun h => (ident_isPlain v h).elim fun _ h => hp h
  cases t' with
  | kw k =>
    obtain ⟨rfl, h | h | h⟩ := h
    · exact hp (t' := .kw u) ⟨rfl, .inl h⟩
    · exact hp (t' := .kw u) ⟨rfl, .inr h⟩
    · exact hident (ident_iff.2 (disagree_ident v _ h))
  | sym k => obtain ⟨rfl, h⟩ := h; exact max_sym ht hr hu h
  | EDGE_CONTROL_SPECIFIER => exact max_edge ht ha hr hu h
  | TIME_LITERAL => exact hp (t' := .TIME_LITERAL) h
  | ANY_BASED_NUMBER => exact max_based ht ha hr hu h
  | BASED_NUMBER_WITH_SIZE => exact max_sized ht ha hr hu h
  | REAL_NUMBER_WITH_EXP => exact hp (t' := .REAL_NUMBER_WITH_EXP) h
  | FIXED_POINT_NUMBER => exact hp (t' := .FIXED_POINT_NUMBER) h
  | UNSIGNED_NUMBER => exact hp (t' := .UNSIGNED_NUMBER) h
  | UNBASED_UNSIZED_LITERAL => exact hp (t' := .UNBASED_UNSIZED_LITERAL) h
  | STRING_LITERAL => obtain ⟨b, e, h, -⟩ := h; exact hp (t' := .STRING_LITERAL) ⟨b, e, h⟩
  | C_IDENTIFIER => exact hident h.1
  | ESCAPED_IDENTIFIER => exact hp (t' := .ESCAPED_IDENTIFIER) h
  | SIMPLE_IDENTIFIER => exact hident h
  | SYSTEM_TF_IDENTIFIER => exact (system_plain v h).elim fun _ h => hp h
  | BLOCK_COMMENT => exact absurd ((block_head h).trans hu) ha.2.2
  | WHITE_SPACE =>
    exfalso
    have hk := text_cls (v := v) (t := .WHITE_SPACE) h (by simp)
    obtain ⟨x, w', rfl⟩ := List.exists_cons_of_ne_nil (plain_ne ht)
    obtain ⟨c, u', rfl⟩ := List.exists_cons_of_ne_nil h.1
    have hx : c = x := by simp at hu; exact hu.1
    subst hx
    have hc : white c = true := by have := h.2; simp at this; exact this.1
    have hk' := text_cls (v := v) (t := .WHITE_SPACE) (w := [c]) ⟨by simp, by simp [hc]⟩ (by simp)
    have hcl : cls (c :: w') = 14 := by
      have : c ∈ [' ', '\t', '\n', '\r', '\x0c'] := by simpa [white] using hc
      simp only [List.mem_cons, List.not_mem_nil, or_false] at this
      rcases this with rfl | rfl | rfl | rfl | rfl <;> simp [cls, SvLex.identStart, letter, digit, white]
    rcases plain_class ht with ⟨-, h'⟩ | ⟨hnk, h'⟩
    · omega
    · rw [hcl] at h'
      cases t with
      | kw s => exact absurd rfl (hnk s)
      | _ => first | exact ht.elim | (simp [klass] at h')
  | _ => exact h.elim

/-- The rule of an element. -/
theorem rule_of_plain (ht : Plain v t w) (hr : Limits.supported.elem v false t w s) : ∃ l1 d l2, rules = l1 ++ d :: l2 ∧ d.since ≤ v.code ∧ noEof d.re = true ∧ d.ty = t ∧ L d.re w ∧
    (∀ k, t = .kw k → ∀ q ∈ l1, ∃ k', q.ty = .kw k') ∧ (t = .C_IDENTIFIER → ∀ q ∈ l1, q.ty ≠ .SIMPLE_IDENTIFIER) := by
  have hmid : ∀ (i : Nat) (d : SRule) (hs : d.since = 0) (hn : noEof d.re = true) (hi : midRules = midRules.take i ++ d :: midRules.drop (i + 1)), d.ty = t → L d.re w →
      (∀ k, t ≠ .kw k) → (t = .C_IDENTIFIER → ∀ q ∈ midRules.take i, q.ty ≠ .SIMPLE_IDENTIFIER) →
      ∃ l1 d l2, rules = l1 ++ d :: l2 ∧ d.since ≤ v.code ∧ noEof d.re = true ∧ d.ty = t ∧ L d.re w ∧
        (∀ k, t = .kw k → ∀ q ∈ l1, ∃ k', q.ty = .kw k') ∧ (t = .C_IDENTIFIER → ∀ q ∈ l1, q.ty ≠ .SIMPLE_IDENTIFIER) := by
    intro i d hs hn hi h1 h2 h3 h4
    refine ⟨kwTexts.map (fun x => ⟨.kw x.1, lit x.1, false, x.2⟩) ++ midRules.take i, d, midRules.drop (i + 1) ++ (symTexts.map (fun s => ⟨.sym s, lit s, false, 0⟩) ++ hiddenRules),
      ?_, by rw [hs]; exact Nat.zero_le _, hn, h1, h2, fun k e => absurd e (h3 k), ?_⟩
    · rw [rules]
      conv_lhs => rw [hi]
      simp only [List.append_assoc, List.cons_append]
    · intro e q hq
      rcases List.mem_append.1 hq with hq | hq
      · obtain ⟨x, -, rfl⟩ := List.mem_map.1 hq; simp
      · exact h4 e q hq
  cases t with
  | kw k =>
    obtain ⟨rfl, h⟩ := ht
    obtain ⟨n, hn, hv⟩ := reserved_kw h (hr rfl).2.2.2.2.1
    obtain ⟨a, b, e⟩ := List.append_of_mem hn
    refine ⟨a.map (fun x => ⟨.kw x.1, lit x.1, false, x.2⟩), ⟨.kw w, lit w, false, n⟩, b.map (fun x => ⟨.kw x.1, lit x.1, false, x.2⟩) ++ (midRules ++
      (symTexts.map (fun s => ⟨.sym s, lit s, false, 0⟩) ++ hiddenRules)), ?_, hv, noEof_lit _, rfl, L_lit.2 rfl, ?_, by simp⟩
    · rw [rules, e]; simp
    · intro k _ q hq
      obtain ⟨x, -, rfl⟩ := List.mem_map.1 hq
      exact ⟨_, rfl⟩
  | sym k =>
    obtain ⟨rfl, h⟩ := ht
    obtain ⟨a, b, e⟩ := List.append_of_mem (all_sym _ (symbols_all h))
    refine ⟨kwTexts.map (fun x => ⟨.kw x.1, lit x.1, false, x.2⟩) ++ (midRules ++ a.map (fun s => ⟨.sym s, lit s, false, 0⟩)), ⟨.sym w, lit w, false, 0⟩,
      b.map (fun s => ⟨.sym s, lit s, false, 0⟩) ++ hiddenRules, ?_, Nat.zero_le _, noEof_lit _, rfl, L_lit.2 rfl, by simp, by simp⟩
    rw [rules, e]; simp
  | TIME_LITERAL => exact hmid 1 ⟨.TIME_LITERAL, TIME_LITERALr, false, 0⟩ rfl (by decide) rfl rfl ((L_time w).2 ht) (by simp) (by simp)
  | ANY_BASED_NUMBER => exact hmid 2 ⟨.ANY_BASED_NUMBER, ANY_BASED_NUMBERr, false, 0⟩ rfl (by decide) rfl rfl ((L_based w).2 (based_loose ht)) (by simp) (by simp)
  | BASED_NUMBER_WITH_SIZE =>
    exact hmid 3 ⟨.BASED_NUMBER_WITH_SIZE, seq UNSIGNED_NUMBERr ANY_BASED_NUMBERr, false, 0⟩ rfl (by decide) rfl rfl
      ((L_sized w).2 (plain_text (v := v) (t := .BASED_NUMBER_WITH_SIZE) ht (by simp))) (by simp) (by simp)
  | REAL_NUMBER_WITH_EXP => exact hmid 4 ⟨.REAL_NUMBER_WITH_EXP, REAL_NUMBER_WITH_EXPr, false, 0⟩ rfl (by decide) rfl rfl ((L_real w).2 ht) (by simp) (by simp)
  | FIXED_POINT_NUMBER => exact hmid 5 ⟨.FIXED_POINT_NUMBER, FIXED_POINT_NUMBERr, false, 0⟩ rfl (by decide) rfl rfl ((L_fixed w).2 ht) (by simp) (by simp)
  | UNSIGNED_NUMBER => exact hmid 6 ⟨.UNSIGNED_NUMBER, UNSIGNED_NUMBERr, false, 0⟩ rfl (by decide) rfl rfl ((L_unsigned w).2 ht) (by simp) (by simp)
  | UNBASED_UNSIZED_LITERAL => exact hmid 7 ⟨.UNBASED_UNSIZED_LITERAL, UNBASED_UNSIZED_LITERALr, false, 0⟩ rfl (by decide) rfl rfl ((L_unbased w).2 ht) (by simp) (by simp)
  | STRING_LITERAL =>
    exact hmid 8 ⟨.STRING_LITERAL, STRING_LITERALr, false, 0⟩ rfl (by decide) rfl rfl ((L_string w).2 (plain_text (v := v) (t := .STRING_LITERAL) ht (hr rfl).1)) (by simp) (by simp)
  | C_IDENTIFIER =>
    exact hmid 9 ⟨.C_IDENTIFIER, C_IDENTIFIERr, false, 0⟩ rfl (by decide) rfl rfl ((L_cIdent w).2 ((cIdent_iff w).2 ⟨ht.1, ht.2.1⟩)) (by simp) (fun _ => by decide)
  | ESCAPED_IDENTIFIER => exact hmid 10 ⟨.ESCAPED_IDENTIFIER, ESCAPED_IDENTIFIERr, false, 0⟩ rfl (by decide) rfl rfl ((L_escaped w).2 ht) (by simp) (by simp)
  | SIMPLE_IDENTIFIER => exact hmid 11 ⟨.SIMPLE_IDENTIFIER, SIMPLE_IDENTIFIERr, false, 0⟩ rfl (by decide) rfl rfl ((L_ident w).2 ht.1) (by simp) (by simp)
  | SYSTEM_TF_IDENTIFIER => exact hmid 12 ⟨.SYSTEM_TF_IDENTIFIER, SYSTEM_TF_IDENTIFIERr, false, 0⟩ rfl (by decide) rfl rfl ((L_system w).2 ht.1) (by simp) (by simp)
  | _ => exact ht.elim

/-- Only one type fits an element, up to the order of the rules. -/
theorem type_plain {t' : LTy} (ht : Plain v t w) (hd : w ∉ disagree v) (h : Text v t' w) :
    t' = t ∨ ((∃ k, t = .kw k) ∧ ∀ k, t' ≠ .kw k) ∨ (t = .C_IDENTIFIER ∧ t' = .SIMPLE_IDENTIFIER) := by
  rcases plain_class ht with ⟨rfl, hk⟩ | ⟨hnk, hk⟩
  · by_cases h' : ∃ k, t' = .kw k
    · obtain ⟨k, rfl⟩ := h'
      left; rw [h.1]
    · exact .inr (.inl ⟨⟨_, rfl⟩, by simpa using h'⟩)
  · by_cases h' : ∃ k, t' = .kw k
    · obtain ⟨k, rfl⟩ := h'
      obtain ⟨rfl, h⟩ := h
      have h : w ∈ reserved v ∨ w ∈ special := by tauto
      have hw := word_cls h
      rw [hk] at hw
      exfalso
      cases t with
      | kw k => exact hnk k rfl
      | C_IDENTIFIER => exact h.elim ht.2.2.1 ht.2.2.2
      | SIMPLE_IDENTIFIER => exact h.elim ht.2.2.1 ht.2.2.2
      | SYSTEM_TF_IDENTIFIER =>
        rcases h with h | h
        · have key : ∀ k ∈ reserved .sv2017, cls k = 2 := by decide +kernel
          rw [key w (reserved_2017 h)] at hk; cases hk
        · exact ht.2 h
      | _ => first | exact ht.elim | (simp [klass] at hw)
    · rw [not_exists] at h'
      have hk' := text_cls h h'
      rw [hk] at hk'
      cases t with
      | kw k => exact absurd rfl (hnk k)
      | sym k =>
        cases t' with
        | kw k' => exact absurd rfl (h' k')
        | sym k' => left; rw [← h.1, ← ht.1]
        | _ => first | exact h.elim | (simp [klass] at hk')
      | C_IDENTIFIER =>
        cases t' with
        | kw k' => exact absurd rfl (h' k')
        | C_IDENTIFIER => exact .inl rfl
        | SIMPLE_IDENTIFIER => exact .inr (.inr ⟨rfl, rfl⟩)
        | _ => first | exact h.elim | (simp [klass] at hk')
      | SIMPLE_IDENTIFIER =>
        cases t' with
        | kw k' => exact absurd rfl (h' k')
        | C_IDENTIFIER => exact absurd ht.2.1 h.2
        | SIMPLE_IDENTIFIER => exact .inl rfl
        | _ => first | exact h.elim | (simp [klass] at hk')
      | _ =>
        first
        | exact ht.elim
        | cases t' with
          | kw k' => exact absurd rfl (h' k')
          | _ => first | exact .inl rfl | exact h.elim | (simp [klass] at hk')

theorem pick_plain (ht : Plain v t w) (ha : Apart v false w s) (hr : Limits.supported.elem v false t w s) :
    ∃ r, pick SRule.re (rulesOf v.code false) (syms (w ++ s)) = some (r, w.length) ∧ r.ty = t ∧ r.hide = false := by
  obtain ⟨l1, d, l2, e, hs, hn, hty, hL, hkw, hid⟩ := rule_of_plain ht hr
  have hmax : ∀ q ∈ rulesOf v.code false, noEof q.re = true → ∀ u, u <+: w ++ s → L q.re u → u.length ≤ w.length := by
    intro q hq hn u hu h
    exact max_plain ht ha hr hu (rtext (v := v) (m := false) hq hn h)
  have hle : ∀ q ∈ rulesOf v.code false, ∀ k, longest q.re (syms (w ++ s)) = some k → k ≤ w.length := by
    intro q hq k hk
    rcases eof_rule hq with h | ⟨-, h⟩
    · exact longest_le h (hmax q hq h) hk
    · rw [h, no_line ha.2.1] at hk; cases hk
  have ef : rulesOf v.code false = (l1.filter fun r => decide (r.since ≤ v.code)) ++ d :: l2.filter fun r => decide (r.since ≤ v.code) := by
    rw [rulesOf, e]
    simp [List.filter_append, hs]
  have hd : d ∈ rulesOf v.code false := by rw [ef]; simp
  have hld := longest_max hn (List.prefix_append w s) hL (hmax d hd hn)
  obtain ⟨r, hp⟩ := pick_exists hd hld hle
  obtain ⟨hmem, hlr⟩ := pick_some hp
  have hnr : noEof r.re = true := by
    rcases eof_rule hmem with h | ⟨-, h⟩
    · exact h
    · rw [h, no_line ha.2.1] at hlr; cases hlr
  have hLr : L r.re w := by
    have := (longest_some_iff.1 hlr).2.1
    rwa [take_syms (by simp), List.take_left] at this
  have htext : Text v r.ty w := rtext (v := v) (m := false) hmem hnr hLr
  have hpos : r ∈ l1 ++ [d] := by
    rw [ef] at hp
    have := pick_skip (re := SRule.re) hld (Nat.le_refl _) hp
    simp only [List.mem_append, List.mem_filter] at this ⊢
    tauto
  have hrt : r.ty = t := by
    rcases type_plain ht (hr rfl).2.2.2.2.1 htext with h | ⟨⟨k, rfl⟩, h⟩ | ⟨rfl, h⟩
    · exact h
    · rcases List.mem_append.1 hpos with hq | hq
      · obtain ⟨k', hk'⟩ := hkw k rfl r hq; exact absurd hk' (h k')
      · rw [List.mem_singleton.1 hq]; exact hty
    · rcases List.mem_append.1 hpos with hq | hq
      · exact absurd h (hid rfl r hq)
      · rw [List.mem_singleton.1 hq]; exact hty
  refine ⟨r, hp, hrt, ?_⟩
  rw [hide_eq hmem, hrt]
  cases t with
  | _ => first | rfl | exact ht.elim

end

/-! ## Elements in tables -/

theorem table_ne {t : LTy} {w : Str} (h : InTable t w) : ∃ c r, w = c :: r ∧ white c = false ∧ c ≠ '/' := by
  cases t with
  | kw k => obtain ⟨rfl, rfl⟩ := h; exact ⟨_, _, rfl, by decide, by decide⟩
  | sym k =>
    obtain ⟨rfl, h⟩ := h
    have key : ∀ k ∈ [c! "(", c! ")", c! ":", c! ";", c! "-"], ∃ c r, k = c :: r ∧ white c = false ∧ c ≠ '/' := by
      intro k hk; simp only [List.mem_cons, List.not_mem_nil, or_false] at hk
      rcases hk with rfl | rfl | rfl | rfl | rfl <;> exact ⟨_, _, rfl, by decide, by decide⟩
    exact key _ h
  | LEVEL_SYMBOL =>
    obtain ⟨c, rfl, hc⟩ := h
    have key : ∀ c ∈ ['0', '1', 'x', 'X', '?', 'b', 'B'], white c = false ∧ c ≠ '/' := by decide
    exact ⟨c, [], rfl, key c hc⟩
  | EDGE_SYMBOL =>
    obtain ⟨c, rfl, hc⟩ := h
    have key : ∀ c ∈ ['r', 'R', 'f', 'F', 'p', 'P', 'n', 'N', '*'], white c = false ∧ c ≠ '/' := by decide
    exact ⟨c, [], rfl, key c hc⟩
  | _ => exact h.elim

theorem table_unique {t t' : LTy} {w : Str} (h : InTable t w) (h' : InTable t' w) : t' = t := by
  have e1 : ∀ {t w}, InTable t w → t = .kw w ∧ w = c! "endtable" ∨ t = .sym w ∧ w ∈ [c! "(", c! ")", c! ":", c! ";", c! "-"] ∨
      t = .LEVEL_SYMBOL ∧ w ∈ [c! "0", c! "1", c! "x", c! "X", c! "?", c! "b", c! "B"] ∨
      t = .EDGE_SYMBOL ∧ w ∈ [c! "r", c! "R", c! "f", c! "F", c! "p", c! "P", c! "n", c! "N", c! "*"] := by
    intro t w h
    cases t with
    | kw k => obtain ⟨rfl, rfl⟩ := h; simp
    | sym k => obtain ⟨rfl, h⟩ := h; exact .inr (.inl ⟨rfl, h⟩)
    | LEVEL_SYMBOL => obtain ⟨c, rfl, hc⟩ := h; right; right; left; simpa using hc
    | EDGE_SYMBOL => obtain ⟨c, rfl, hc⟩ := h; right; right; right; simpa using hc
    | _ => exact h.elim
  have key : ∀ w ∈ [c! "0", c! "1", c! "x", c! "X", c! "?", c! "b", c! "B"], w ≠ c! "endtable" ∧ w ∉ [c! "(", c! ")", c! ":", c! ";", c! "-"] ∧
    w ∉ [c! "r", c! "R", c! "f", c! "F", c! "p", c! "P", c! "n", c! "N", c! "*"] := by decide
  have key2 : ∀ w ∈ [c! "r", c! "R", c! "f", c! "F", c! "p", c! "P", c! "n", c! "N", c! "*"], w ≠ c! "endtable" ∧ w ∉ [c! "(", c! ")", c! ":", c! ";", c! "-"] := by decide
  have key3 : ∀ w ∈ [c! "(", c! ")", c! ":", c! ";", c! "-"], w ≠ c! "endtable" := by decide
  rcases e1 h with ⟨rfl, a⟩ | ⟨rfl, a⟩ | ⟨rfl, a⟩ | ⟨rfl, a⟩ <;> rcases e1 h' with ⟨rfl, b⟩ | ⟨rfl, b⟩ | ⟨rfl, b⟩ | ⟨rfl, b⟩
  · rfl
  · exact absurd a (key3 w b)
  · exact absurd a (key w b).1
  · exact absurd a (key2 w b).1
  · exact absurd b (key3 w a)
  · rfl
  · exact absurd a (key w b).2.1
  · exact absurd a (key2 w b).2
  · exact absurd b (key w a).1
  · exact absurd b (key w a).2.1
  · rfl
  · exact absurd b (key w a).2.2
  · exact absurd b (key2 w a).1
  · exact absurd b (key2 w a).2
  · exact absurd a (key w b).2.2
  · rfl

theorem rule_of_table {t : LTy} {w : Str} (h : InTable t w) : ∃ d ∈ tableRules, noEof d.re = true ∧ L d.re w := by
  cases t with
  | kw k => obtain ⟨rfl, rfl⟩ := h; exact ⟨⟨.kw (c! "endtable"), lit (c! "endtable"), false, 0⟩, by simp [tableRules], noEof_lit _, L_lit.2 rfl⟩
  | sym k =>
    obtain ⟨rfl, h⟩ := h
    refine ⟨⟨.sym w, lit w, false, 0⟩, ?_, noEof_lit _, L_lit.2 rfl⟩
    simp only [List.mem_cons, List.not_mem_nil, or_false] at h
    rcases h with rfl | rfl | rfl | rfl | rfl <;> simp [tableRules]
  | LEVEL_SYMBOL =>
    obtain ⟨c, rfl, hc⟩ := h
    refine ⟨⟨.LEVEL_SYMBOL, alt (set ['?']) (set ['0', '1', 'x', 'X', 'b', 'B']), false, 0⟩, by simp [tableRules], rfl, L_alt.2 ?_⟩
    rw [L_set, L_set]
    simp at hc ⊢; tauto
  | EDGE_SYMBOL =>
    obtain ⟨c, rfl, hc⟩ := h
    refine ⟨⟨.EDGE_SYMBOL, alt (set ['*']) (set ['r', 'R', 'f', 'F', 'p', 'P', 'n', 'N']), false, 0⟩, by simp [tableRules], rfl, L_alt.2 ?_⟩
    rw [L_set, L_set]
    simp at hc ⊢; tauto
  | _ => exact h.elim

theorem pick_table {v : Version} {t : LTy} {w s : Str} (ht : InTable t w) (ha : Apart v true w s) :
    ∃ r, pick SRule.re (rulesOf v.code true) (syms (w ++ s)) = some (r, w.length) ∧ r.ty = t ∧ r.hide = false := by
  obtain ⟨d, hd, hn, hL⟩ := rule_of_table ht
  obtain ⟨c, w', rfl, hc, hc'⟩ := table_ne ht
  have hmax : ∀ q ∈ rulesOf v.code true, noEof q.re = true → ∀ u, u <+: (c :: w') ++ s → L q.re u → u.length ≤ (c :: w').length := by
    intro q hq hn u hu h
    have h : TableText q.ty u := rtext (v := v) (m := true) hq hn h
    rcases h with h | ⟨-, h⟩ | ⟨-, h1, h2, -⟩
    · exact ha.1 _ u h hu
    · exact absurd ((block_head h).trans hu) ha.2.2
    · exfalso
      obtain ⟨x, u', rfl⟩ := List.exists_cons_of_ne_nil h1
      simp at h2 hu
      rw [hu.1, hc] at h2; cases h2.1
  have hle : ∀ q ∈ rulesOf v.code true, ∀ k, longest q.re (syms ((c :: w') ++ s)) = some k → k ≤ (c :: w').length := by
    intro q hq k hk
    rcases eof_rule hq with h | ⟨-, h⟩
    · exact longest_le h (hmax q hq h) hk
    · rw [h, no_line ha.2.1] at hk; cases hk
  have hld := longest_max hn (List.prefix_append (c :: w') s) hL (hmax d hd hn)
  obtain ⟨r, hp⟩ := pick_exists (l := rulesOf v.code true) hd hld hle
  obtain ⟨hmem, hlr⟩ := pick_some hp
  have hnr : noEof r.re = true := by
    rcases eof_rule hmem with h | ⟨-, h⟩
    · exact h
    · rw [h, no_line ha.2.1] at hlr; cases hlr
  have hLr : L r.re (c :: w') := by
    have := (longest_some_iff.1 hlr).2.1
    rwa [take_syms (by simp), List.take_left] at this
  have htext : TableText r.ty (c :: w') := rtext (v := v) (m := true) hmem hnr hLr
  have hrt : r.ty = t := by
    rcases htext with h | ⟨-, h⟩ | ⟨-, -, h, -⟩
    · exact table_unique ht h
    · exfalso
      have := block_head h
      simp at this; exact hc' this.1.symm
    · simp [hc] at h
  refine ⟨r, hp, hrt, ?_⟩
  rw [hide_eq hmem, hrt]
  cases t with
  | _ => first | rfl | exact ht.elim

/-- The lexer takes an element as a token. -/
theorem lex_elem {v : Version} {m : Bool} {t : LTy} {w s : Str} (ht : Element v m t w) (ha : Apart v m w s) (hr : Limits.supported.elem v m t w s) :
    lexM v.code m (w ++ s) = (lexM v.code (tableAfter m t) s).map fun ts => tokenOf (t, w) :: ts := by
  have hw : w ≠ [] := by
    cases m with
    | false => exact plain_ne ht
    | true => obtain ⟨c, r, rfl, -⟩ := table_ne ht; simp
  have hp : ∃ r, pick SRule.re (rulesOf v.code m) (syms (w ++ s)) = some (r, w.length) ∧ r.ty = t ∧ r.hide = false := by
    cases m with
    | false => exact pick_plain ht ha hr
    | true => exact pick_table ht ha
  obtain ⟨r, hp, rfl, hh⟩ := hp
  rw [lexM_visible hw hp hh, nextMode_eq]
  have hu : utf8 w = Lrm.bytes w := Vhdl.utf8_bytes w
  rw [hu]; rfl

/-! ## White space -/

/-- The white space of a mode. -/
def whiteIn (m : Bool) (c : Char) : Bool := white c && (!m || c != '\x0c')

theorem rtext_white {v : Version} {m : Bool} {t : LTy} {c : Char} {u : Str} (hc : white c = true) (h : RText v m t (c :: u)) :
    t = .WHITE_SPACE ∧ (c :: u).all (whiteIn m) = true := by
  have hall : ∀ {u : Str}, u.all white = true → (m = true → '\x0c' ∉ u) → u.all (whiteIn m) = true := by
    intro u h1 h2
    rw [List.all_eq_true] at h1 ⊢
    intro x hx
    cases m with
    | false => simp [whiteIn, h1 x hx]
    | true => simp only [whiteIn, h1 x hx, Bool.not_true, Bool.false_or, Bool.true_and, bne_iff_ne]; rintro rfl; exact h2 rfl hx
  cases m with
  | true =>
    rcases (show TableText t (c :: u) from h) with h | ⟨-, h⟩ | ⟨rfl, -, h, h'⟩
    · obtain ⟨x, r, e, hx, -⟩ := table_ne h
      rw [← (List.cons.inj e).1, hc] at hx; cases hx
    · have := block_head h
      simp at this; rw [← this.1] at hc; exact absurd hc (by decide)
    · exact ⟨rfl, hall h fun _ => h'⟩
  | false =>
    have h : Text v t (c :: u) := h
    have hcl : cls (c :: u) = 14 := by
      have : c ∈ [' ', '\t', '\n', '\r', '\x0c'] := by simpa [white] using hc
      simp only [List.mem_cons, List.not_mem_nil, or_false] at this
      rcases this with rfl | rfl | rfl | rfl | rfl <;> simp [cls, SvLex.identStart, letter, digit, white]
    by_cases hk : ∃ k, t = .kw k
    · obtain ⟨k, rfl⟩ := hk
      exfalso
      obtain ⟨rfl, h⟩ := h
      have h2 : cls (c :: u) = 2 ∨ cls (c :: u) = 3 ∨ cls (c :: u) = 7 := by
        rcases h with h | h | h
        · exact word_cls (v := v) (.inl h)
        · exact word_cls (v := v) (.inr h)
        · exact .inl (ident_cls (ident_iff.2 (disagree_ident v _ h)))
      omega
    · rw [not_exists] at hk
      have := text_cls h hk
      rw [hcl] at this
      cases t with
      | kw k => exact absurd rfl (hk k)
      | WHITE_SPACE => exact ⟨rfl, hall h.2 (by simp)⟩
      | _ => first | exact h.elim | (simp [klass] at this)

theorem white_rule (v : Nat) (m : Bool) : ∃ d ∈ rulesOf v m, noEof d.re = true ∧ ∀ u, u ≠ [] → u.all (whiteIn m) = true → L d.re u := by
  cases m with
  | true =>
    refine ⟨⟨.WHITE_SPACE, plus (set [' ', '\t', '\n', '\r']), true, 0⟩, by simp [rulesOf, tableRules], rfl, fun u h1 h2 => (L_plus_cls (Vhdl.cls_set _) u).2 ⟨h1, ?_⟩⟩
    rw [List.all_eq_true] at h2 ⊢
    intro x hx; have := h2 x hx; simp [whiteIn, white] at this ⊢; tauto
  | false =>
    refine ⟨⟨.WHITE_SPACE, WHITE_SPACEr, true, 0⟩, ?_, rfl, fun u h1 h2 => (L_white u).2 ⟨h1, ?_⟩⟩
    · rw [rulesOf]; simp [rules, hiddenRules]
    · rw [List.all_eq_true] at h2 ⊢
      intro x hx; have := h2 x hx; simp [whiteIn] at this; exact this

/-- The lexer skips white space. -/
theorem lex_white {v : Version} {m : Bool} {c : Char} {s : Str} (hc : whiteIn m c = true) : lexM v.code m (c :: s) = lexM v.code m s := by
  have hskip : ∀ {c : Char} {s : Str}, whiteIn m c = true → lexM v.code m (c :: s) = lexM v.code m (s.dropWhile (whiteIn m)) := by
    intro c s hc
    have hcw : white c = true := by simp [whiteIn] at hc; exact hc.1
    have e : c :: s = (c :: s.takeWhile (whiteIn m)) ++ s.dropWhile (whiteIn m) := by simp
    have hall : (c :: s.takeWhile (whiteIn m)).all (whiteIn m) = true := by simp [hc, List.all_takeWhile]
    obtain ⟨d, hd, hn, hdL⟩ := white_rule v.code m
    have htext : ∀ q ∈ rulesOf v.code m, noEof q.re = true → ∀ u, u <+: c :: s → L q.re u → q.ty = .WHITE_SPACE ∧ u ≠ [] ∧ u.all (whiteIn m) = true := by
      intro q hq hn u hu h
      have hu0 : u ≠ [] := by
        rintro rfl
        have := nonnull hq
        rw [nullable_iff.2 h] at this; cases this
      obtain ⟨x, u', rfl⟩ := List.exists_cons_of_ne_nil hu0
      have hx : x = c := by simp at hu; exact hu.1
      subst hx
      obtain ⟨h1, h2⟩ := rtext_white hcw (rtext (v := v) hq hn h)
      exact ⟨h1, hu0, h2⟩
    have hmax : ∀ u, u <+: c :: s → u.all (whiteIn m) = true → u.length ≤ (c :: s.takeWhile (whiteIn m)).length := by
      intro u hu h
      by_contra hlen
      rw [e] at hu
      obtain ⟨x, y, z, rfl, e2⟩ := longer hu (by omega)
      have hx : whiteIn m x = true := List.all_eq_true.1 h x (by simp)
      have := List.head_dropWhile_not (whiteIn m) (l := s) (by rw [e2]; simp)
      simp only [e2, List.head_cons] at this
      rw [hx] at this; cases this
    have hno : longest ONE_LINE_COMMENTr (syms (c :: s)) = none := by
      refine no_line ?_
      intro h; simp at h
      rw [← h.1] at hcw; revert hcw; decide
    have hle : ∀ q ∈ rulesOf v.code m, ∀ k, longest q.re (syms (c :: s)) = some k → k ≤ (c :: s.takeWhile (whiteIn m)).length := by
      intro q hq k hk
      rcases eof_rule hq with h | ⟨-, h⟩
      · exact longest_le h (fun u hu hL => hmax u hu (htext q hq h u hu hL).2.2) hk
      · rw [h, hno] at hk; cases hk
    have hpre : (c :: s.takeWhile (whiteIn m)) <+: c :: s := by
      conv_rhs => rw [e]
      exact List.prefix_append _ _
    have hld := longest_max hn hpre (hdL _ (by simp) hall) fun u hu hL => hmax u hu (htext d hd hn u hu hL).2.2
    obtain ⟨r, hp⟩ := pick_exists hd hld hle
    obtain ⟨hmem, hlr⟩ := pick_some hp
    have hnr : noEof r.re = true := by
      rcases eof_rule hmem with h | ⟨-, h⟩
      · exact h
      · rw [h, hno] at hlr; cases hlr
    have hLr : L r.re (c :: s.takeWhile (whiteIn m)) := by
      have := (longest_some_iff.1 hlr).2.1
      rw [e, take_syms (by rw [List.length_append]; omega), List.take_left] at this
      exact this
    have hty := (htext r hmem hnr _ hpre hLr).1
    rw [e] at hp
    conv_lhs => rw [e]
    exact lexM_hidden (by simp) hp (by rw [hide_eq hmem, hty]; rfl) (by rw [hty]; cases m <;> rfl)
  rw [hskip hc]
  cases s with
  | nil => rfl
  | cons d s =>
    by_cases hd : whiteIn m d = true
    · rw [hskip hd, List.dropWhile_cons_of_pos hd]
    · rw [List.dropWhile_cons_of_neg hd]

/-! ## Comments -/

/-- What can match at the start of a comment. -/
theorem rtext_slash {v : Version} {m : Bool} {t : LTy} {u : Str} {c : Char} {s : Str} (hc : c = '/' ∨ c = '*') (hu : u <+: '/' :: c :: s) (h : RText v m t u) :
    u.length ≤ 1 ∨ (t = .BLOCK_COMMENT ∧ c = '*' ∧ L BLOCK_COMMENTr u) := by
  have hb : L BLOCK_COMMENTr u → c = '*' := by
    intro h
    have := (block_head h).trans hu
    simp at this; exact this.symm
  cases m with
  | true =>
    rcases (show TableText t u from h) with h | ⟨e, h⟩ | ⟨-, h, h', -⟩
    · obtain ⟨x, r, rfl, -, hx⟩ := table_ne h
      simp at hu; exact absurd hu.1 hx
    · exact .inr ⟨e, hb h, h⟩
    · obtain ⟨x, u', rfl⟩ := List.exists_cons_of_ne_nil h
      simp at hu h'; rw [hu.1] at h'; exact absurd h'.1 (by decide)
  | false =>
    have h : Text v t u := h
    cases u with
    | nil => exact .inl (by simp)
    | cons x u =>
      have hx : x = '/' := by simp at hu; exact hu.1
      subst hx
      have hcl : cls ('/' :: u) = 0 ∨ cls ('/' :: u) = 15 := cls_symHead (by decide)
      by_cases hk : ∃ k, t = .kw k
      · obtain ⟨k, rfl⟩ := hk
        exfalso
        obtain ⟨rfl, h⟩ := h
        have h2 : cls ('/' :: u) = 2 ∨ cls ('/' :: u) = 3 ∨ cls ('/' :: u) = 7 := by
          rcases h with h | h | h
          · exact word_cls (v := v) (.inl h)
          · exact word_cls (v := v) (.inr h)
          · exact .inl (ident_cls (ident_iff.2 (disagree_ident v _ h)))
        omega
      · rw [not_exists] at hk
        have hk' := text_cls h hk
        rw [hk'] at hcl
        cases t with
        | kw k => exact absurd rfl (hk k)
        | sym k =>
          obtain ⟨rfl, h⟩ := h
          left
          cases u with
          | nil => simp
          | cons y u =>
            exfalso
            have key : ∀ k ∈ symTexts, ¬ ['/', '/'] <+: k ∧ ¬ ['/', '*'] <+: k := by decide +kernel
            have hy : y = c := by simp at hu; exact hu.1
            subst hy
            rcases hc with rfl | rfl
            · exact (key _ h).1 ⟨u, rfl⟩
            · exact (key _ h).2 ⟨u, rfl⟩
        | BLOCK_COMMENT => exact .inr ⟨rfl, hb h, h⟩
        | _ => first | exact h.elim | (simp [klass] at hcl)

theorem line_rule (v : Nat) (m : Bool) : ⟨.ONE_LINE_COMMENT, ONE_LINE_COMMENTr, true, 0⟩ ∈ rulesOf v m := by
  cases m with
  | true => simp [rulesOf, tableRules]
  | false => rw [rulesOf]; simp [rules, hiddenRules]
theorem block_rule (v : Nat) (m : Bool) : ⟨.BLOCK_COMMENT, BLOCK_COMMENTr, true, 0⟩ ∈ rulesOf v m := by
  cases m with
  | true => simp [rulesOf, tableRules]
  | false => rw [rulesOf]; simp [rules, hiddenRules]

theorem nextMode_hidden {m : Bool} {t : LTy} (h : hiddenTy t = true) : nextMode m t = m := by
  simp only [hiddenTy, Bool.or_eq_true, beq_iff_eq] at h
  rcases h with (rfl | rfl) | rfl <;> cases m <;> rfl

theorem matches_nonNl {x : List Sym} : Spec.Matches (star (non ['\n'])) x ↔ ∃ w : Str, x = w.map some ∧ '\n' ∉ w := by
  constructor
  · intro h
    obtain ⟨w, rfl⟩ := Vhdl.noEof_some h (by decide)
    have := (L_star_cls (r := non ['\n']) (p := fun c => c != '\n') (fun u => by rw [L_non]; simp) w).1 h
    refine ⟨w, rfl, fun hm => ?_⟩
    have := List.all_eq_true.1 this _ hm
    simp at this
  · rintro ⟨w, rfl, h⟩
    refine (L_star_cls (r := non ['\n']) (p := fun c => c != '\n') (fun u => by rw [L_non]; simp) w).2 ?_
    rw [List.all_eq_true]
    intro c hc; simp; rintro rfl; exact h hc

/-- What the rule of comments matches. -/
theorem matches_line {x : List Sym} : Spec.Matches ONE_LINE_COMMENTr x ↔ ∃ w : Str, '\n' ∉ w ∧ (x = ('/' :: '/' :: w).map some ++ [none] ∨ x = ('/' :: '/' :: w).map some ++ [some '\n']) := by
  have hlast : ∀ y, Spec.Matches (alt eof (set ['\n'])) y ↔ y = [none] ∨ y = [some '\n'] := by
    intro y
    rw [matches_alt]
    constructor
    · rintro (h | h)
      · cases h; exact .inl rfl
      · cases h with | set h => simp at h; subst h; exact .inr rfl
    · rintro (rfl | rfl)
      · exact .inl .eof
      · exact .inr (.set (by simp))
  have e0 : ONE_LINE_COMMENTr = seq (lit ['/', '/']) (seq (star (non ['\n'])) (alt eof (set ['\n']))) := rfl
  rw [e0, matches_seq]
  constructor
  · rintro ⟨a, b, rfl, ha, hb⟩
    obtain ⟨y, z, rfl, hy, hz⟩ := matches_seq.1 hb
    rw [Pp.matches_lit] at ha
    subst ha
    obtain ⟨w, rfl, hw⟩ := matches_nonNl.1 hy
    rcases (hlast z).1 hz with rfl | rfl
    · exact ⟨w, hw, .inl rfl⟩
    · exact ⟨w, hw, .inr rfl⟩
  · rintro ⟨w, hw, h⟩
    refine ⟨['/', '/'].map some, w.map some ++ (x.drop (2 + w.length)), ?_, Pp.matches_lit.2 rfl, matches_seq.2 ⟨w.map some, _, rfl, matches_nonNl.2 ⟨w, rfl, hw⟩, ?_⟩⟩
    · rcases h with rfl | rfl <;> simp [Nat.add_comm 2]
    · rw [hlast]
      rcases h with rfl | rfl
      · left; simp [Nat.add_comm 2]
      · right; simp [Nat.add_comm 2]

/-- A comment up to the end of the line. -/
theorem longest_line {w s : Str} (hw : '\n' ∉ w) : longest ONE_LINE_COMMENTr (syms ('/' :: '/' :: (w ++ '\n' :: s))) = some (w.length + 3) := by
  refine longest_some_iff.2 ⟨by simp [syms], ?_, ?_⟩
  · refine matches_line.2 ⟨w, hw, .inr ?_⟩
    rw [take_syms (by simp)]
    have : ('/' :: '/' :: (w ++ '\n' :: s)).take (w.length + 3) = '/' :: '/' :: (w ++ ['\n']) := by
      rw [show '/' :: '/' :: (w ++ '\n' :: s) = ('/' :: '/' :: (w ++ ['\n'])) ++ s by simp, List.take_left' (by simp)]
    rw [this]; simp
  · intro k h1 h2 hm
    obtain ⟨u, hu, h⟩ := matches_line.1 hm
    have hpre : (syms ('/' :: '/' :: (w ++ '\n' :: s))).take k <+: syms ('/' :: '/' :: (w ++ '\n' :: s)) := List.take_prefix _ _
    have hlen : ((syms ('/' :: '/' :: (w ++ '\n' :: s))).take k).length = k := by rw [List.length_take]; omega
    rcases Nat.lt_trichotomy u.length w.length with hl | hl | hl
    · rcases h with h | h <;> rw [h] at hlen <;> simp at hlen <;> omega
    · rcases h with h | h <;> rw [h] at hlen <;> simp at hlen <;> omega
    · have hp : (('/' :: '/' :: u).map some : List Sym) <+: syms ('/' :: '/' :: (w ++ '\n' :: s)) := by
        rcases h with h | h <;> exact (List.prefix_append _ _).trans (h ▸ hpre)
      have hi : (('/' :: '/' :: u).map some : List Sym)[w.length + 2]? = some (some '\n') := by
        obtain ⟨z, hz⟩ := hp
        have e : (syms ('/' :: '/' :: (w ++ '\n' :: s)))[w.length + 2]? = some (some '\n') := by simp [syms]
        rw [← hz, List.getElem?_append_left (by simp; omega)] at e
        exact e
      simp at hi
      exact hu (List.mem_of_getElem? hi)

theorem longest_lineEnd {w : Str} (hw : '\n' ∉ w) : longest ONE_LINE_COMMENTr (syms ('/' :: '/' :: w)) = some (w.length + 3) := by
  refine longest_some_iff.2 ⟨by simp [syms], ?_, ?_⟩
  · refine matches_line.2 ⟨w, hw, .inl ?_⟩
    rw [List.take_of_length_le (by simp [syms])]; rfl
  · intro k h1 h2; simp [syms] at h2; omega

/-- A comment is skipped. -/
theorem lex_comment {v : Version} {m : Bool} {s : Str} {n : Nat} (hs : ['/', '/'] <+: s) (hl : longest ONE_LINE_COMMENTr (syms s) = some n) (hn : 1 ≤ n) :
    lexM v.code m s = lexM v.code m (s.drop n) := by
  obtain ⟨s', rfl⟩ := hs
  have hnum : ∀ q ∈ rulesOf v.code m, ∀ k, longest q.re (syms (['/', '/'] ++ s')) = some k → k ≤ 1 ∨ (q.ty = .ONE_LINE_COMMENT ∧ k = n) := by
    intro q hq k hk
    rcases eof_rule hq with h | ⟨ht, h⟩
    · left
      refine longest_le h (fun u hu hL => ?_) hk
      rcases rtext_slash (.inl rfl) hu (rtext (v := v) hq h hL) with h | ⟨-, h, -⟩
      · exact h
      · cases h
    · right; rw [h, hl] at hk; cases hk; exact ⟨ht, rfl⟩
  obtain ⟨r, hp⟩ := pick_exists (re := SRule.re) (line_rule v.code m) hl (by
    intro q hq k hk
    rcases hnum q hq k hk with h | ⟨-, h⟩ <;> omega)
  obtain ⟨hmem, hlr⟩ := pick_some hp
  have hge : 2 ≤ n := by
    obtain ⟨w, -, h⟩ := matches_line.1 (longest_some_iff.1 hl).2.1
    have h1 := (longest_some_iff.1 hl).1
    have h2 : ((syms (['/', '/'] ++ s')).take n).length = n := by rw [List.length_take]; omega
    rcases h with h | h <;> rw [h] at h2 <;> simp at h2 <;> omega
  have hty : r.ty = .ONE_LINE_COMMENT := by
    rcases hnum r hmem n hlr with h | ⟨h, -⟩
    · omega
    · exact h
  rw [lexM_step (by simp) hp, hide_eq hmem, hty, nextMode_hidden (by rfl)]
  cases lexM v.code m (List.drop n (['/', '/'] ++ s')) <;> rfl

theorem lex_line {v : Version} {m : Bool} {w s : Str} (hw : '\n' ∉ w) : lexM v.code m ('/' :: '/' :: (w ++ '\n' :: s)) = lexM v.code m s := by
  rw [lex_comment (show ['/', '/'] <+: '/' :: '/' :: (w ++ '\n' :: s) from ⟨_, rfl⟩) (longest_line hw) (by omega)]
  rw [show '/' :: '/' :: (w ++ '\n' :: s) = ('/' :: '/' :: (w ++ ['\n'])) ++ s by simp, List.drop_left' (by simp)]

theorem lex_lineEnd {v : Version} {m : Bool} {w : Str} (hw : '\n' ∉ w) : lexM v.code m ('/' :: '/' :: w) = some [] := by
  rw [lex_comment (show ['/', '/'] <+: '/' :: '/' :: w from ⟨_, rfl⟩) (longest_lineEnd hw) (by omega), List.drop_of_length_le (by simp)]
  exact lexM_nil _ _

theorem lex_block {v : Version} {m : Bool} {w s : Str} (hw : Lrm.noBlockEnd w = true) : lexM v.code m ('/' :: '*' :: (w ++ '*' :: '/' :: s)) = lexM v.code m s := by
  have hne : Pp.noEnd w = true := by
    have e : ∀ v, Pp.noEnd v = Lrm.noBlockEnd v := by
      intro v
      fun_induction Lrm.noBlockEnd v with
      | case1 s => rfl
      | case2 c s h ih => rw [Pp.noEnd, ih]; exact h
      | case3 => rfl
    rw [e, hw]
  have e : '/' :: '*' :: (w ++ '*' :: '/' :: s) = ('/' :: '*' :: (w ++ ['*', '/'])) ++ s := by simp
  have hl : longest BLOCK_COMMENTr (syms (('/' :: '*' :: (w ++ ['*', '/'])) ++ s)) = some ('/' :: '*' :: (w ++ ['*', '/'])).length := Pp.longest_comment hne s
  rw [e]
  have hnum : ∀ q ∈ rulesOf v.code m, ∀ k, longest q.re (syms (('/' :: '*' :: (w ++ ['*', '/'])) ++ s)) = some k → k ≤ 1 ∨ (q.ty = .BLOCK_COMMENT ∧ k ≤ ('/' :: '*' :: (w ++ ['*', '/'])).length) := by
    intro q hq k hk
    rcases eof_rule hq with h | ⟨-, h⟩
    · by_cases hk1 : k ≤ 1
      · exact .inl hk1
      · obtain ⟨hk2, hm, -⟩ := longest_some_iff.1 hk
        have hks : k ≤ (('/' :: '*' :: (w ++ ['*', '/'])) ++ s).length := longest_le h (fun u hu _ => hu.length_le) hk
        rw [take_syms hks] at hm
        rcases rtext_slash (v := v) (m := m) (c := '*') (s := (w ++ ['*', '/']) ++ s) (.inr rfl) (List.take_prefix k _) (rtext (v := v) hq h hm) with h' | ⟨h', -, hb⟩
        · rw [List.length_take] at h'; simp only [List.length_append, List.length_cons] at h' hks; omega
        · right
          refine ⟨h', ?_⟩
          have := longest_bound hl (List.take_prefix k _) hb
          rw [List.length_take] at this
          omega
    · rw [h, no_line (by intro h; simp at h)] at hk; cases hk
  obtain ⟨r, hp⟩ := pick_exists (re := SRule.re) (block_rule v.code m) hl (by
    intro q hq k hk
    rcases hnum q hq k hk with h | ⟨-, h⟩
    · simp; omega
    · exact h)
  obtain ⟨hmem, hlr⟩ := pick_some hp
  have hty : r.ty = .BLOCK_COMMENT := by
    rcases hnum r hmem _ hlr with h | ⟨h, -⟩
    · simp at h
    · exact h
  exact lexM_hidden (by simp) hp (by rw [hide_eq hmem, hty]; rfl) (by rw [hty]; exact nextMode_hidden rfl)

/-- The lexer on a divided text. -/
theorem lex_divided {v : Version} {m : Bool} {s : Str} {ts : List (LTy × Str)} (h : Divided .supported v m s ts) : lexM v.code m s = some (ts.map tokenOf) := by
  induction h with
  | nil => exact lexM_nil _ _
  | @sep m c s ts hc hr h ih =>
    rw [lex_white, ih]
    cases m with
    | false => simp [whiteIn, hc]
    | true => have : c ≠ '\x0c' := hr rfl; simp [whiteIn, hc, this]
  | line hw h ih => rw [lex_line hw, ih]
  | lineEnd hw => exact lex_lineEnd hw
  | block hw h ih => rw [lex_block hw, ih]
  | elem ht ha hr h ih => rw [lex_elem ht ha hr, ih]; rfl
  | escEnd hn hr => exact hr.elim

/-! ## The way back -/

/-- If a rule matches the same text, a rule behind it is not chosen. -/
theorem not_behind {v : Nat} {s w : Str} {r d : SRule} {l1 l2 : List SRule} (hr : rules = l1 ++ d :: l2) (hd : d.since ≤ v)
    (hp : pick SRule.re (rulesOf v false) (syms s) = some (r, w.length)) (hw : w <+: s) (h : L d.re w) : r ∈ l1 ++ [d] := by
  have ef : rulesOf v false = (l1.filter fun r => decide (r.since ≤ v)) ++ d :: l2.filter fun r => decide (r.since ≤ v) := by
    rw [rulesOf, hr]
    simp [List.filter_append, hd]
  rw [ef] at hp
  obtain ⟨m, h1, h2⟩ := longest_ge hw h
  have := pick_skip (re := SRule.re) h1 h2 hp
  simp only [List.mem_append, List.mem_filter] at this ⊢
  tauto

/-- A chosen token that is no keyword is no word of the lexer. -/
theorem not_word {v : Version} {s w : Str} {r : SRule} (hp : pick SRule.re (rulesOf v.code false) (syms s) = some (r, w.length)) (hw : w <+: s)
    (hk : ∀ k, r.ty ≠ .kw k) (h : w ∈ reserved v ∨ w ∈ special) : w ∈ disagree v := by
  by_contra hd
  obtain ⟨n, hn, hv⟩ := reserved_kw h hd
  obtain ⟨a, b, e⟩ := List.append_of_mem hn
  have hm := not_behind (d := ⟨.kw w, lit w, false, n⟩) (l1 := a.map (fun x => ⟨.kw x.1, lit x.1, false, x.2⟩))
    (l2 := b.map (fun x => ⟨.kw x.1, lit x.1, false, x.2⟩) ++ (midRules ++ (symTexts.map (fun s => ⟨.sym s, lit s, false, 0⟩) ++ hiddenRules)))
    (by rw [rules, e]; simp) hv hp hw (L_lit.2 rfl)
  rcases List.mem_append.1 hm with hm | hm
  · obtain ⟨x, -, rfl⟩ := List.mem_map.1 hm
    exact hk _ rfl
  · rw [List.mem_singleton.1 hm] at hk
    exact hk _ rfl

theorem visible_plain {v : Version} {s w : Str} {r : SRule} (hmem : r ∈ rulesOf v.code false) (hp : pick SRule.re (rulesOf v.code false) (syms s) = some (r, w.length)) (hw : w <+: s)
    (hn : noEof r.re = true) (hL : L r.re w) (hh : hiddenTy r.ty = false) : Element v false r.ty w ∨ Deviation v r.ty w := by
  have ht : Text v r.ty w := rtext (v := v) (m := false) hmem hn hL
  have hno := not_word hp hw
  have hnd : ∀ k ∈ disagree v, '$' ∉ k := by cases v <;> decide
  have hword : (∀ k, r.ty ≠ .kw k) → w ∉ disagree v → w ∉ reserved v ∧ w ∉ special := fun hk hd =>
    ⟨fun h => hd (hno hk (.inl h)), fun h => hd (hno hk (.inr h))⟩
  have hsimple : r.ty = .SIMPLE_IDENTIFIER → Ident w → '$' ∈ w := by
    intro e hi
    by_contra hc
    have hm := not_behind (d := ⟨.C_IDENTIFIER, C_IDENTIFIERr, false, 0⟩) (l1 := kwTexts.map (fun x => ⟨.kw x.1, lit x.1, false, x.2⟩) ++ midRules.take 9)
      (l2 := midRules.drop 10 ++ (symTexts.map (fun s => ⟨.sym s, lit s, false, 0⟩) ++ hiddenRules)) (by simp [rules, midRules]) (Nat.zero_le _) hp hw
      ((L_cIdent w).2 ((cIdent_iff w).2 ⟨hi, hc⟩))
    have key : ∀ q ∈ midRules.take 9, q.ty ≠ .SIMPLE_IDENTIFIER := by decide
    rcases List.mem_append.1 hm with hm | hm
    · rcases List.mem_append.1 hm with hm | hm
      · obtain ⟨x, -, rfl⟩ := List.mem_map.1 hm; cases e
      · exact key _ hm e
    · rw [List.mem_singleton.1 hm] at e; cases e
  have hsys : ∀ k ∈ disagree v, k.head? ≠ some '$' := by cases v <;> decide
  generalize r.ty = t at *
  cases t with
  | kw k =>
    obtain ⟨rfl, h | h | h⟩ := ht
    · exact .inl ⟨rfl, .inl h⟩
    · exact .inl ⟨rfl, .inr h⟩
    · exact .inr ⟨rfl, h⟩
  | sym k => obtain ⟨rfl, h⟩ := ht; exact .inr ⟨rfl, sym_all _ h⟩
  | EDGE_CONTROL_SPECIFIER => exact .inr ht
  | ANY_BASED_NUMBER => exact .inr ht
  | BASED_NUMBER_WITH_SIZE => exact .inr ht
  | STRING_LITERAL => obtain ⟨b, e, h, -⟩ := ht; exact .inl ⟨b, e, h⟩
  | C_IDENTIFIER =>
    by_cases hd : w ∈ disagree v
    · exact .inr hd
    · exact .inl ⟨ht.1, ht.2, hword (by simp) hd⟩
  | SIMPLE_IDENTIFIER =>
    have hs := hsimple rfl ht
    exact .inl ⟨ht, hs, hword (by simp) fun h => hnd w h hs⟩
  | SYSTEM_TF_IDENTIFIER =>
    refine .inl ⟨ht, (hword (by simp) fun h => hsys w h ?_).2⟩
    obtain ⟨x, rfl, -⟩ := ht; rfl
  | BLOCK_COMMENT => cases hh
  | WHITE_SPACE => cases hh
  | TIME_LITERAL => exact .inl ht
  | REAL_NUMBER_WITH_EXP => exact .inl ht
  | FIXED_POINT_NUMBER => exact .inl ht
  | UNSIGNED_NUMBER => exact .inl ht
  | UNBASED_UNSIZED_LITERAL => exact .inl ht
  | ESCAPED_IDENTIFIER => exact .inl ht
  | _ => exact ht.elim

theorem covered_blanks {v : Version} {m : Bool} {s : Str} {ts : List (LTy × Str)} (h : Covered v m s ts) : ∀ {w : Str}, w.all white = true → Covered v m (w ++ s) ts
  | [], _ => h
  | c :: w, hw => by
    simp only [List.all_cons, Bool.and_eq_true] at hw
    exact .blank hw.1 (covered_blanks h hw.2)

/-- The lexer covers the text. -/
theorem lex_covered {v : Version} {m : Bool} {s : Str} {toks : List LTok} (h : lexM v.code m s = some toks) : ∃ ts, Covered v m s ts ∧ toks = ts.map tokenOf := by
  generalize hk : s.length = k
  induction k using Nat.strong_induction_on generalizing m s toks with
  | _ k ih =>
    by_cases hs : s = []
    · subst hs
      cases h
      exact ⟨[], .nil, rfl⟩
    · cases hp : pick SRule.re (rulesOf v.code m) (syms s) with
      | none => rw [lexM_none hs hp] at h; cases h
      | some x =>
        obtain ⟨r, n⟩ := x
        have hpos := pick_pos hp
        obtain ⟨hmem, hl⟩ := pick_some hp
        have hstep := lexM_step hs hp
        rw [h] at hstep
        cases ht : lexM v.code (nextMode m r.ty) (s.drop n) with
        | none => rw [ht] at hstep; cases hstep
        | some toks' =>
          rw [ht] at hstep
          simp only [Option.some.injEq] at hstep
          have hsl : 0 < s.length := List.length_pos_iff.2 hs
          obtain ⟨ts, hc, rfl⟩ := ih (s.drop n).length (by rw [← hk, List.length_drop]; omega) ht rfl
          rw [hide_eq hmem] at hstep
          rcases eof_rule hmem with hn | ⟨hty, hre⟩
          · have hns : n ≤ s.length := longest_le hn (fun u hu _ => hu.length_le) hl
            have hL : L r.re (s.take n) := by
              have := (longest_some_iff.1 hl).2.1
              rwa [take_syms hns] at this
            have hlen : (s.take n).length = n := by rw [List.length_take]; omega
            have e := List.take_append_drop n s
            generalize s.take n = w at *
            generalize s.drop n = t at *
            subst hlen
            cases hh : hiddenTy r.ty with
            | false =>
              rw [hh] at hstep
              refine ⟨(r.ty, w) :: ts, ?_, ?_⟩
              · rw [nextMode_eq] at hc
                rw [← e]
                refine .elem ?_ hc
                cases m with
                | false =>
                  rcases visible_plain hmem hp ⟨t, e⟩ hn hL hh with h | h
                  · exact .inl h
                  · exact .inr ⟨rfl, h⟩
                | true =>
                  rcases (show TableText r.ty w from rtext (v := v) hmem hn hL) with h | ⟨h, -⟩ | ⟨h, -⟩
                  · exact .inl h
                  · rw [h] at hh; cases hh
                  · rw [h] at hh; cases hh
              · have hu : utf8 w = Lrm.bytes w := Vhdl.utf8_bytes w
                rw [hstep, hu]; rfl
            | true =>
              rw [hh] at hstep
              refine ⟨ts, ?_, by simpa using hstep⟩
              rw [nextMode_hidden hh] at hc
              rw [← e]
              have hb : L BLOCK_COMMENTr w → Covered v m (w ++ t) ts := by
                intro h
                obtain ⟨x, rfl, hx⟩ := Vhdl.block_text h
                have := Covered.block hx hc
                simpa using this
              have htext := rtext (v := v) hmem hn hL
              cases m with
              | true =>
                rcases (show TableText r.ty w from htext) with h | ⟨-, h⟩ | ⟨-, -, h, -⟩
                · exfalso
                  generalize r.ty = ty at *
                  cases ty with
                  | _ => first | exact h.elim | cases hh
                · exact hb h
                · exact covered_blanks hc h
              | false =>
                have htext : Text v r.ty w := htext
                generalize r.ty = ty at *
                cases ty with
                | BLOCK_COMMENT => exact hb htext
                | WHITE_SPACE => exact covered_blanks hc htext.2
                | _ => first | exact htext.elim | cases hh
          · have hh : hiddenTy r.ty = true := by rw [hty]; rfl
            rw [hh] at hstep
            refine ⟨ts, ?_, by simpa using hstep⟩
            rw [nextMode_hidden hh] at hc
            rw [hre] at hl
            obtain ⟨hle, hm, -⟩ := longest_some_iff.1 hl
            obtain ⟨w, hw, h'⟩ := matches_line.1 hm
            have hlen : ((syms s).take n).length = n := by rw [List.length_take]; omega
            have hsy := List.take_append_drop n (syms s)
            rcases h' with h' | h'
            · have hn : n = w.length + 3 := by rw [h'] at hlen; simp at hlen; omega
              rw [h'] at hsy
              have hle' : w.length + 2 ≤ s.length := by rw [hn] at hle; simp [syms] at hle; omega
              have e : s = '/' :: '/' :: w := by
                by_contra hne
                have h1 : (syms s)[w.length + 2]? = some none := by rw [← hsy]; simp
                rw [syms] at h1
                by_cases hlt : w.length + 2 < s.length
                · rw [List.getElem?_append_left (by simpa using hlt)] at h1
                  simp at h1
                · have heq : s.length = w.length + 2 := by omega
                  have h2 : (syms s).take (w.length + 2) = s.map some := by rw [← heq, take_syms (Nat.le_refl _), List.take_length]
                  rw [← hsy, List.append_assoc, List.take_left' (by simp)] at h2
                  exact hne (List.map_injective_iff.2 (Option.some_injective _) h2).symm
              rw [e, List.drop_of_length_le (by rw [hn]; simp), lexM_nil] at ht
              have hts : ts = [] := by simpa using ht
              rw [e, hts]
              exact .lineEnd hw
            · have hn : n = w.length + 3 := by rw [h'] at hlen; simp at hlen; omega
              have hns : n ≤ s.length := by
                by_contra hc
                have h1 : (syms s)[w.length + 2]? = some (some '\n') := by rw [← hsy, h']; simp
                have h2 : s.length = w.length + 2 := by rw [hn] at hle hc; simp [syms] at hle; omega
                rw [syms, List.getElem?_append_right (by simp; omega)] at h1
                simp [h2] at h1
              have e : s.take n = '/' :: '/' :: (w ++ ['\n']) := by
                rw [take_syms hns] at h'
                refine List.map_injective_iff.2 (Option.some_injective _) (h'.trans (by simp))
              rw [← List.take_append_drop n s, e]
              have := Covered.line (v := v) hw hc
              simpa using this

end Verif.Sv
