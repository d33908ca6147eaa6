import Verif.SvLexMain
/-!
# Checking divided texts

Computable conditions for `Apart`, for the examples.
-/
namespace Verif.Sv
open Verif.Antlr Verif.Spec Verif.Spec.SvLex

/-- Necessary for the part of a number that begins with the base. -/
def baseB : Str → Bool
  | b :: r => ['d', 'D', 'b', 'B', 'o', 'O', 'h', 'H'].contains b && (r.dropWhile white).all fun c => hexDigit c || c == '_'
  | [] => false
/-- Necessary for a number behind an apostrophe. -/
def basedB : Str → Bool
  | '\'' :: 's' :: r => baseB r
  | '\'' :: 'S' :: r => baseB r
  | '\'' :: r => baseB r
  | _ => false

theorem hexDigit_of {c : Char} (h : digit c = true ∨ xz c = true ∨ binDigit c = true ∨ octDigit c = true ∨ hexDigit c = true) : hexDigit c = true := by
  simp only [binDigit, octDigit, hexDigit, hex, digit, List.contains_iff_mem, List.mem_cons, List.not_mem_nil, or_false, Bool.or_eq_true, Bool.and_eq_true,
    decide_eq_true_eq] at h ⊢
  rcases h with h | h | (h | rfl | rfl) | (h | h) | h
  · exact .inr (.inl (.inl h))
  · exact .inl h
  · exact .inl h
  · decide
  · decide
  · exact .inl h
  · exact .inr (.inl (.inl ⟨h.1, Char.le_trans h.2 (by decide)⟩))
  · exact h

theorem figures_all {p : Char → Bool} {w : Str} (h : figures p w = true) (hp : ∀ c, p c = true → hexDigit c = true) :
    (w.all fun c => hexDigit c || c == '_') = true ∧ ∃ c s, w = c :: s ∧ hexDigit c = true := by
  cases w with
  | nil => cases h
  | cons c s =>
    simp only [figures, Bool.and_eq_true, List.all_eq_true, Bool.or_eq_true, beq_iff_eq] at h
    refine ⟨?_, c, s, rfl, hp c h.1⟩
    simp only [List.all_eq_true, Bool.or_eq_true, beq_iff_eq]
    intro d hd
    rcases List.mem_cons.1 hd with rfl | hd
    · exact .inl (hp _ h.1)
    · exact (h.2 d hd).imp_left (hp d)

theorem value_all {b : Char} {n : Str} (h : Value b n) : ['d', 'D', 'b', 'B', 'o', 'O', 'h', 'H'].contains b = true ∧
    (n.all fun c => hexDigit c || c == '_') = true ∧ ∃ c s, n = c :: s ∧ hexDigit c = true := by
  rcases h with ⟨h, h' | ⟨c, us, rfl, h1, h2⟩⟩ | ⟨h, h'⟩ | ⟨h, h'⟩ | ⟨h, h'⟩
  · exact ⟨by rcases h with rfl | rfl <;> decide, figures_all h' fun c h => hexDigit_of (.inl h)⟩
  · refine ⟨by rcases h with rfl | rfl <;> decide, ?_, c, us, rfl, hexDigit_of (.inr (.inl h1))⟩
    rw [List.all_eq_true] at h2 ⊢
    intro d hd
    rcases List.mem_cons.1 hd with rfl | hd
    · rw [hexDigit_of (.inr (.inl h1))]; rfl
    · rw [h2 d hd, Bool.or_true]
  · exact ⟨by rcases h with rfl | rfl <;> decide, figures_all h' fun c h => hexDigit_of (.inr (.inr (.inl h)))⟩
  · exact ⟨by rcases h with rfl | rfl <;> decide, figures_all h' fun c h => hexDigit_of (.inr (.inr (.inr (.inl h))))⟩
  · exact ⟨by rcases h with rfl | rfl <;> decide, figures_all h' fun c h => h⟩

theorem hex_not_white {c : Char} (h : hexDigit c = true) : white c = false := by
  cases hw : white c with
  | false => rfl
  | true =>
    exfalso
    simp only [white, List.contains_iff_mem, List.mem_cons, List.not_mem_nil, or_false] at hw
    rcases hw with rfl | rfl | rfl | rfl | rfl <;> exact absurd h (by decide)

theorem based_B {w : Str} (h : Based w) : basedB w = true := by
  obtain ⟨g, b, ws, n, rfl, hg, hw, hv⟩ := h
  obtain ⟨hb, hn, c, s, rfl, hc⟩ := value_all hv
  have key : baseB (b :: (ws ++ c :: s)) = true := by
    simp only [baseB, hb, Bool.true_and]
    rw [List.dropWhile_append_of_pos (List.all_eq_true.1 hw), List.dropWhile_cons_of_neg (by rw [hex_not_white hc]; simp)]
    exact hn
  rcases hg with rfl | rfl | rfl
  · rw [List.nil_append, basedB]
    · exact key
    · rintro r e; rw [(List.cons.inj e).1] at hb; revert hb; decide
    · rintro r e; rw [(List.cons.inj e).1] at hb; revert hb; decide
  · exact key
  · exact key

/-- Necessary for a string. -/
def stringB (u : Str) : Bool := u.tail.getLast? == some '"' && strBody u.tail.dropLast
/-- Necessary for an element. -/
def plainB (v : Version) (u : Str) : Bool :=
  match cls u with
  | 0 => (symbols v).contains u
  | 2 => identB u
  | 3 => u.tail.all SvLex.identChar
  | 4 => basedB (u.dropWhile (· != '\''))
  | 5 => u.all fun c => numChar c || ['s', 'm', 'u', 'n', 'p', 'f'].contains c
  | 6 => u.all realChar
  | 7 => true
  | 8 => u.all numChar
  | 9 => figures digit u
  | 10 => unbased.contains u
  | 11 => basedB u
  | 12 => stringB u
  | 13 => (u.tail.dropWhile printable).all white && (u.getLast?.map white).getD false
  | _ => false

theorem plain_B {v : Version} {t : LTy} {u : Str} (h : Plain v t u) : plainB v u = true := by
  rcases plain_class h with ⟨rfl, hk⟩ | ⟨hnk, hk⟩
  · have key : ∀ s ∈ reserved .sv2017 ++ special, (cls s = 2 → identB s = true) ∧ (cls s = 3 → s.tail.all SvLex.identChar = true) := by decide +kernel
    have := key u (List.mem_append.2 (h.2.imp reserved_2017 id))
    rcases hk with hk | hk | hk
    · simp only [plainB, hk]; exact this.1 hk
    · simp only [plainB, hk]; exact this.2 hk
    · simp only [plainB, hk]
  · cases t with
    | kw k => exact absurd rfl (hnk k)
    | sym k => obtain ⟨rfl, h⟩ := h; simp only [plainB, hk, klass, List.contains_iff_mem]; exact h
    | C_IDENTIFIER => simp only [plainB, hk, klass]; exact ident_iff.1 h.1
    | SIMPLE_IDENTIFIER => simp only [plainB, hk, klass]; exact ident_iff.1 h.1
    | SYSTEM_TF_IDENTIFIER => obtain ⟨⟨s, rfl, -, h⟩, -⟩ := h; simp only [plainB, hk, klass]; exact h
    | UNSIGNED_NUMBER => simp only [plainB, hk, klass]; exact h
    | FIXED_POINT_NUMBER =>
      obtain ⟨c, s, -, -, h2⟩ := mantissa_chars (.inr h)
      simp only [plainB, hk, klass, List.all_eq_true]; exact h2
    | REAL_NUMBER_WITH_EXP => simp only [plainB, hk, klass, List.all_eq_true]; exact (real_chars h).2.1
    | TIME_LITERAL =>
      simp only [plainB, hk, klass, List.all_eq_true, Bool.or_eq_true, List.contains_iff_mem]; exact (time_chars h).2.1
    | ANY_BASED_NUMBER => simp only [plainB, hk, klass]; exact based_B h
    | BASED_NUMBER_WITH_SIZE =>
      simp only [plainB, hk, klass]
      obtain ⟨n, b, rfl, hn, hb⟩ := h
      have e : (n ++ b).dropWhile (· != '\'') = b := by
        obtain ⟨-, -, -, -, hall⟩ := figures_chars hn
        obtain ⟨c, d, r, e, -⟩ := loose_len (based_loose hb)
        rw [List.dropWhile_append_of_pos, e]
        · simp
        · intro x hx
          rcases hall x hx with h | h
          · simp; rintro rfl; revert h; decide
          · subst h; decide
      rw [e]; exact based_B hb
    | UNBASED_UNSIZED_LITERAL => simp only [plainB, hk, klass, List.contains_iff_mem]; exact h
    | STRING_LITERAL =>
      simp only [plainB, hk, klass]
      obtain ⟨b, rfl, h⟩ := h
      simp [stringB, h]
    | ESCAPED_IDENTIFIER =>
      simp only [plainB, hk, klass]
      obtain ⟨n, ws, rfl, h0, h1, h2⟩ := h
      rw [List.tail_cons, List.dropWhile_append_of_pos (List.all_eq_true.1 h0), Bool.and_eq_true]
      refine ⟨List.all_eq_true.2 fun x hx => List.all_eq_true.1 h2 x ((List.dropWhile_sublist _).subset hx), ?_⟩
      obtain ⟨x, y, rfl⟩ := List.eq_nil_or_concat ws |>.resolve_left h1
      rw [List.all_eq_true] at h2
      have := h2 y (by simp)
      simp [List.getLast?_cons, this]
    | _ => exact h.elim

/-- The text `w` is apart from the rest. -/
def apartB (v : Version) (w s : Str) : Bool := ((w ++ s).inits.all fun u => decide (u.length ≤ w.length) || !plainB v u) &&
  !(['/', '/'].isPrefixOf (w ++ s)) && !(['/', '*'].isPrefixOf (w ++ s))
theorem apart_B {v : Version} {w s : Str} (h : apartB v w s = true) : Apart v false w s := by
  simp only [apartB, Bool.and_eq_true, Bool.not_eq_true', List.all_eq_true, Bool.or_eq_true, decide_eq_true_eq] at h
  refine ⟨fun t u ht hu => ?_, ?_, ?_⟩
  · rcases h.1.1 u ((List.mem_inits _ _).2 hu) with h | h
    · exact h
    · rw [plain_B ht] at h; cases h
  · rw [← List.isPrefixOf_iff_prefix]; simp [h.1.2]
  · rw [← List.isPrefixOf_iff_prefix]; simp [h.2]

/-- The same in tables. -/
def apartT (w s : Str) : Bool := ((w ++ s).inits.all fun u => decide (u.length ≤ w.length) || (decide (u.length ≠ 1) && u != c! "endtable")) &&
  !(['/', '/'].isPrefixOf (w ++ s)) && !(['/', '*'].isPrefixOf (w ++ s))
theorem apart_T {v : Version} {w s : Str} (h : apartT w s = true) : Apart v true w s := by
  simp only [apartT, Bool.and_eq_true, Bool.not_eq_true', List.all_eq_true, Bool.or_eq_true, decide_eq_true_eq, bne_iff_ne] at h
  refine ⟨fun t u ht hu => ?_, ?_, ?_⟩
  · rcases h.1.1 u ((List.mem_inits _ _).2 hu) with h | ⟨h1, h2⟩
    · exact h
    · exfalso
      have ht : InTable t u := ht
      cases t with
      | kw k => exact h2 (ht.1.trans ht.2)
      | sym k =>
        obtain ⟨rfl, h⟩ := ht
        have key : ∀ k ∈ [c! "(", c! ")", c! ":", c! ";", c! "-"], k.length = 1 := by decide
        exact h1 (key _ h)
      | LEVEL_SYMBOL => obtain ⟨c, rfl, -⟩ := ht; exact h1 rfl
      | EDGE_SYMBOL => obtain ⟨c, rfl, -⟩ := ht; exact h1 rfl
      | _ => exact ht.elim
  · rw [← List.isPrefixOf_iff_prefix]; simp [h.1.2]
  · rw [← List.isPrefixOf_iff_prefix]; simp [h.2]

/-- The restrictions of the supported texts. -/
def limB (v : Version) (t : LTy) (w s : Str) : Bool :=
  (t != .STRING_LITERAL || known w.tail.dropLast) && (t != .sym (c! "'") || !(s.head?.map loose).getD false) &&
  (t != .UNSIGNED_NUMBER || !(s.head? == some '\'' && (s.tail.head?.map loose).getD false)) && (t != .kw (c! "edge") || s.head? != some '[') &&
  !(disagree v).contains w && (t != .sym w || allSymbols.all fun d => decide (d.length ≤ w.length) || !d.isPrefixOf (w ++ s))
theorem lim_B {v : Version} {t : LTy} {w s : Str} (h : limB v t w s = true) : Limits.supported.elem v false t w s := by
  simp only [limB, Bool.and_eq_true, Bool.or_eq_true, bne_iff_ne, Bool.not_eq_true', List.all_eq_true, decide_eq_true_eq] at h
  obtain ⟨⟨⟨⟨⟨h1, h2⟩, h3⟩, h4⟩, h5⟩, h6⟩ := h
  intro _
  refine ⟨?_, ?_, ?_, ?_, ?_, ?_⟩
  · rintro rfl b rfl
    rcases h1 with h1 | h1
    · exact absurd rfl h1
    · simpa using h1
  · rintro rfl c hc
    rcases h2 with h2 | h2
    · exact absurd rfl h2
    · cases s with
      | nil => cases hc
      | cons d s => simp at hc h2; subst hc; exact h2
  · rintro rfl c r rfl
    rcases h3 with h3 | h3
    · exact absurd rfl h3
    · simpa using h3
  · rintro rfl c hc
    rcases h4 with h4 | h4
    · exact absurd rfl h4
    · simp only [beq_eq_false_iff_ne]; rintro rfl
      exact h4 hc
  · intro hm; rw [List.contains_iff_mem.2 hm] at h5; cases h5
  · rintro d hd rfl hp
    rcases h6 with h6 | h6
    · exact absurd rfl h6
    · rcases h6 d hd with h | h
      · exact h
      · rw [List.isPrefixOf_iff_prefix.2 hp] at h; cases h

/-- An element of a divided text, checked. -/
theorem elemB {v : Version} {t : LTy} {w s : Str} {ts : List (LTy × Str)} (ht : Plain v t w) (hb : (apartB v w s && limB v t w s) = true)
    (h : Divided .supported v (tableAfter false t) s ts) : Divided .supported v false (w ++ s) ((t, w) :: ts) := by
  rw [Bool.and_eq_true] at hb
  exact .elem ht (apart_B hb.1) (lim_B hb.2) h
/-- The same without the restrictions. -/
theorem elemN {v : Version} {t : LTy} {w s : Str} {ts : List (LTy × Str)} (ht : Plain v t w) (hb : apartB v w s = true)
    (h : Divided .none v (tableAfter false t) s ts) : Divided .none v false (w ++ s) ((t, w) :: ts) := .elem ht (apart_B hb) trivial h
/-- The same in tables. -/
theorem elemT {v : Version} {t : LTy} {w s : Str} {ts : List (LTy × Str)} (ht : InTable t w) (hb : apartT w s = true)
    (h : Divided .supported v (tableAfter true t) s ts) : Divided .supported v true (w ++ s) ((t, w) :: ts) := .elem ht (apart_T hb) (by intro e; cases e) h

end Verif.Sv
