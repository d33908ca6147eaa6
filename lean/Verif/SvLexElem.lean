import Verif.SvLexPick
import Verif.VhdlLexMain
/-!
# Texts of the rules of the SystemVerilog lexer
-/
namespace Verif.Sv
open Verif.Antlr Verif.Antlr.Re Verif.Spec Verif.Spec.SvLex
open Verif.Vhdl (L noEof L_eps L_set L_non L_rng L_seq L_alt L_opt L_star L_lit L_alts L_empty Cls take_syms longest_le longest_max longest_none' pick_filter pick_max
  split_at longer pref_head longest_bound longest_ge pick_skip)

/-! ## The rule that is chosen -/

/-- If a rule has a match of `n` symbols and no rule a longer one, a rule with `n` symbols is chosen. -/
theorem pick_exists {α : Type} {re : α → Re} {s : List Sym} {n : Nat} : ∀ {l : List α} {d : α}, d ∈ l → longest (re d) s = some n →
    (∀ q ∈ l, ∀ k, longest (re q) s = some k → k ≤ n) → ∃ r, pick re l s = some (r, n)
  | q :: l, d, hd, hl, hm => by
    have hm' : ∀ q ∈ l, ∀ k, longest (re q) s = some k → k ≤ n := fun q hq => hm q (by simp [hq])
    have tail : d ∈ l → ∃ r, pick re (q :: l) s = some (r, n) := by
      intro h
      obtain ⟨r, hr⟩ := pick_exists h hl hm'
      rw [pick, hr]
      cases e : longest (re q) s with
      | none => exact ⟨r, rfl⟩
      | some k =>
        have := hm q (by simp) k e
        simp only
        split
        · exact ⟨r, rfl⟩
        · exact ⟨q, by rw [show k = n by omega]⟩
    rcases List.mem_cons.1 hd with rfl | h
    · by_cases hx : ∃ q ∈ l, longest (re q) s = some n
      · obtain ⟨q, hq, hlq⟩ := hx
        obtain ⟨r, hr⟩ := pick_exists hq hlq hm'
        rw [pick, hr, hl]
        exact ⟨d, by simp⟩
      · rw [pick, hl]
        cases e : pick re l s with
        | none => exact ⟨d, rfl⟩
        | some x =>
          obtain ⟨q, k⟩ := x
          obtain ⟨hq, hk⟩ := pick_some e
          have := hm' q hq k hk
          exact ⟨d, by simp; omega⟩
    · exact tail h

/-! ## What the texts of the rules are -/

/-- The texts of the rules in the version, by the type of the rule. -/
def Text (v : Version) : LTy → Str → Prop
  | .kw s, u => u = s ∧ (s ∈ reserved v ∨ s ∈ special ∨ s ∈ disagree v)
  | .sym s, u => u = s ∧ s ∈ symTexts
  | .EDGE_CONTROL_SPECIFIER, u => EdgeControl u
  | .TIME_LITERAL, u => Time u
  | .ANY_BASED_NUMBER, u => LooseBased u
  | .BASED_NUMBER_WITH_SIZE, u => ∃ n b, u = n ++ b ∧ figures digit n = true ∧ LooseBased b
  | .REAL_NUMBER_WITH_EXP, u => Real u
  | .FIXED_POINT_NUMBER, u => Fixed u
  | .UNSIGNED_NUMBER, u => figures digit u = true
  | .UNBASED_UNSIZED_LITERAL, u => u ∈ unbased
  | .STRING_LITERAL, u => ∃ b, u = '"' :: b ++ ['"'] ∧ strBody b = true ∧ known b = true
  | .C_IDENTIFIER, u => Ident u ∧ '$' ∉ u
  | .ESCAPED_IDENTIFIER, u => Escaped u
  | .SIMPLE_IDENTIFIER, u => Ident u
  | .SYSTEM_TF_IDENTIFIER, u => System u
  | .BLOCK_COMMENT, u => L BLOCK_COMMENTr u
  | .WHITE_SPACE, u => u ≠ [] ∧ u.all white = true
  | _, _ => False

theorem text_of_rule {v : Version} {q : SRule} (hq : q ∈ rules) (hs : q.since ≤ v.code) (hn : noEof q.re = true) {u : Str} (h : L q.re u) : Text v q.ty u := by
  rw [rules, List.mem_append, List.mem_append, List.mem_append] at hq
  rcases hq with ((hq | hq) | hq) | hq
  · obtain ⟨x, hx, rfl⟩ := List.mem_map.1 hq
    have h := L_lit.1 h
    subst h
    exact ⟨rfl, kw_active hx hs⟩
  · simp only [midRules, List.mem_cons, List.not_mem_nil, or_false] at hq
    rcases hq with rfl | rfl | rfl | rfl | rfl | rfl | rfl | rfl | rfl | rfl | rfl | rfl | rfl
    · exact L_edge h
    · exact (L_time u).1 h
    · exact (L_based u).1 h
    · exact (L_sized u).1 h
    · exact (L_real u).1 h
    · exact (L_fixed u).1 h
    · exact (L_unsigned u).1 h
    · exact (L_unbased u).1 h
    · exact (L_string u).1 h
    · exact (cIdent_iff u).1 ((L_cIdent u).1 h)
    · exact (L_escaped u).1 h
    · exact (L_ident u).1 h
    · exact (L_system u).1 h
  · obtain ⟨x, hx, rfl⟩ := List.mem_map.1 hq
    have h := L_lit.1 h
    subst h
    exact ⟨rfl, hx⟩
  · simp only [hiddenRules, List.mem_cons, List.not_mem_nil, or_false] at hq
    rcases hq with rfl | rfl | rfl
    · exact absurd hn (by decide)
    · exact h
    · exact (L_white u).1 h

/-- The texts of the rules of the table mode. -/
def TableText (t : LTy) (u : Str) : Prop := InTable t u ∨ (t = .BLOCK_COMMENT ∧ L BLOCK_COMMENTr u) ∨ (t = .WHITE_SPACE ∧ u ≠ [] ∧ u.all white = true ∧ '\x0c' ∉ u)

theorem table_of_rule {q : SRule} (hq : q ∈ tableRules) (hn : noEof q.re = true) {u : Str} (h : L q.re u) : TableText q.ty u := by
  have hsym : ∀ {s : Str}, s ∈ [c! "(", c! ")", c! ":", c! ";", c! "-"] → L (lit s) u → TableText (.sym s) u := fun hs h => .inl ⟨L_lit.1 h, hs⟩
  simp only [tableRules, List.mem_cons, List.not_mem_nil, or_false] at hq
  rcases hq with rfl | rfl | rfl | rfl | rfl | rfl | rfl | rfl | rfl | rfl | rfl
  · exact .inl ⟨L_lit.1 h, rfl⟩
  · rcases L_alt.1 h with h | h <;> obtain ⟨c, rfl, hc⟩ := L_set.1 h <;> refine .inl ⟨c, rfl, ?_⟩ <;> revert hc <;> simp <;> tauto
  · rcases L_alt.1 h with h | h <;> obtain ⟨c, rfl, hc⟩ := L_set.1 h <;> refine .inl ⟨c, rfl, ?_⟩ <;> revert hc <;> simp <;> tauto
  · exact .inr (.inl ⟨rfl, h⟩)
  · exact hsym (by decide) h
  · exact hsym (by decide) h
  · exact hsym (by decide) h
  · exact absurd hn (by decide)
  · exact hsym (by decide) h
  · exact hsym (by decide) h
  · obtain ⟨h1, h2⟩ := (L_plus_cls (Vhdl.cls_set _) u).1 h
    refine .inr (.inr ⟨rfl, h1, ?_, ?_⟩)
    · rw [List.all_eq_true] at h2 ⊢
      intro c hc; have := h2 c hc; simp [white] at this ⊢; tauto
    · intro hc
      exact absurd (List.all_eq_true.1 h2 _ hc) (by decide)

/-! ## Heads and characters -/

/-- Is the text a `simple_identifier`. -/
def identB : Str → Bool
  | [] => false
  | c :: s => SvLex.identStart c && s.all SvLex.identChar
theorem ident_iff {w : Str} : Ident w ↔ identB w = true := by
  cases w with
  | nil => simp [Ident, identB]
  | cons c s =>
    simp only [Ident, identB, Bool.and_eq_true]
    constructor
    · rintro ⟨d, r, e, h1, h2⟩; cases e; exact ⟨h1, h2⟩
    · rintro ⟨h1, h2⟩; exact ⟨c, s, rfl, h1, h2⟩

theorem figures_chars {p : Char → Bool} {w : Str} (h : figures p w = true) : ∃ c s, w = c :: s ∧ p c = true ∧ ∀ d ∈ w, p d = true ∨ d = '_' := by
  cases w with
  | nil => cases h
  | cons c s =>
    simp only [figures, Bool.and_eq_true, List.all_eq_true, Bool.or_eq_true, beq_iff_eq] at h
    refine ⟨c, s, rfl, h.1, ?_⟩
    intro d hd
    rcases List.mem_cons.1 hd with rfl | hd
    · exact .inl h.1
    · exact h.2 d hd

/-- Characters of a number without exponent. -/
def numChar (c : Char) : Bool := digit c || c == '_' || c == '.'
theorem mantissa_chars {m : Str} (h : figures digit m = true ∨ Fixed m) : ∃ c s, m = c :: s ∧ digit c = true ∧ ∀ d ∈ m, numChar d = true := by
  rcases h with h | ⟨i, f, rfl, h1, h2⟩
  · obtain ⟨c, s, e, h1, h2⟩ := figures_chars h
    exact ⟨c, s, e, h1, fun d hd => by rcases h2 d hd with h | rfl <;> simp_all [numChar]⟩
  · obtain ⟨c, s, rfl, h3, h4⟩ := figures_chars h1
    obtain ⟨-, -, -, -, h6⟩ := figures_chars h2
    refine ⟨c, s ++ '.' :: f, rfl, h3, ?_⟩
    intro d hd
    rcases List.mem_append.1 hd with hd | hd
    · rcases h4 d hd with h | rfl <;> simp_all [numChar]
    · rcases List.mem_cons.1 hd with rfl | hd
      · rfl
      · rcases h6 d hd with h | rfl <;> simp_all [numChar]

/-- Characters of a real number. -/
def realChar (c : Char) : Bool := numChar c || c == 'e' || c == 'E' || c == '+' || c == '-'
theorem real_chars {w : Str} (h : Real w) : (∃ c s, w = c :: s ∧ digit c = true) ∧ (∀ d ∈ w, realChar d = true) ∧ ('e' ∈ w ∨ 'E' ∈ w) := by
  obtain ⟨m, e, g, x, rfl, hm, he, hg, hx⟩ := h
  obtain ⟨c, s, rfl, h1, h2⟩ := mantissa_chars hm
  obtain ⟨-, -, -, -, h6⟩ := figures_chars hx
  refine ⟨⟨c, _, rfl, h1⟩, ?_, ?_⟩
  · intro d hd
    rcases List.mem_append.1 hd with hd | hd
    · have := h2 d hd; simp [realChar, this]
    · rcases List.mem_cons.1 hd with rfl | hd
      · rcases he with rfl | rfl <;> decide
      · rcases List.mem_append.1 hd with hd | hd
        · rcases hg with rfl | rfl | rfl <;> simp at hd <;> subst hd <;> decide
        · rcases h6 d hd with h | rfl
          · simp [realChar, numChar, h]
          · decide
  · rcases he with rfl | rfl <;> simp

theorem time_chars {w : Str} (h : Time w) : (∃ c s, w = c :: s ∧ digit c = true) ∧ (∀ d ∈ w, numChar d = true ∨ d ∈ ['s', 'm', 'u', 'n', 'p', 'f']) ∧ w.getLast? = some 's' := by
  obtain ⟨m, u, rfl, hm, hu⟩ := h
  obtain ⟨c, s, rfl, h1, h2⟩ := mantissa_chars hm
  have key : ∀ u ∈ units, u.getLast? = some 's' ∧ ∀ d ∈ u, d ∈ ['s', 'm', 'u', 'n', 'p', 'f'] := by decide
  refine ⟨⟨c, _, rfl, h1⟩, ?_, ?_⟩
  · intro d hd
    rcases List.mem_append.1 hd with hd | hd
    · exact .inl (h2 d hd)
    · exact .inr ((key u hu).2 d hd)
  · rw [List.getLast?_append, (key u hu).1]; rfl

theorem value_ne {b : Char} {n : Str} (h : Value b n) : n ≠ [] := by
  rcases h with ⟨-, h | ⟨c, us, rfl, -⟩⟩ | ⟨-, h⟩ | ⟨-, h⟩ | ⟨-, h⟩
  · rintro rfl; cases h
  · simp
  all_goals (rintro rfl; cases h)
theorem value_base {b : Char} {n : Str} (h : Value b n) : b ∈ ['d', 'D', 'b', 'B', 'o', 'O', 'h', 'H'] := by
  rcases h with ⟨h, -⟩ | ⟨h, -⟩ | ⟨h, -⟩ | ⟨h, -⟩ <;> rcases h with rfl | rfl <;> decide

theorem based_loose {w : Str} (h : Based w) : LooseBased w := by
  obtain ⟨g, b, ws, n, rfl, h1, h2, h3⟩ := h
  exact ⟨[], g, [], b, ws, n, rfl, h1, rfl, rfl, h2, h3⟩

/-- A number with white space where it should not be. -/
theorem loose_cases {u : Str} (h : LooseBased u) : Based u ∨ (∃ c r, u = '\'' :: c :: r ∧ white c = true) ∨
    ∃ c d r, u = '\'' :: c :: d :: r ∧ (c = 's' ∨ c = 'S') ∧ white d = true := by
  obtain ⟨w1, g, w2, b, w3, n, rfl, hg, h1, h2, h3, hv⟩ := h
  cases w1 with
  | cons c r => right; left; simp at h1; exact ⟨c, _, rfl, h1.1⟩
  | nil =>
    cases w2 with
    | nil => left; exact ⟨g, b, w3, n, rfl, hg, h3, hv⟩
    | cons d r =>
      right
      simp at h2
      rcases hg with rfl | rfl | rfl
      · left; exact ⟨d, _, rfl, h2.1⟩
      · right; exact ⟨'s', d, _, rfl, .inl rfl, h2.1⟩
      · right; exact ⟨'S', d, _, rfl, .inr rfl, h2.1⟩

/-- The first characters of a based number. -/
theorem based_second {w : Str} (h : Based w) : (∃ b d r, w = '\'' :: b :: d :: r ∧ b ∈ ['d', 'D', 'b', 'B', 'o', 'O', 'h', 'H']) ∨
    ∃ c b d r, w = '\'' :: c :: b :: d :: r ∧ (c = 's' ∨ c = 'S') ∧ b ∈ ['d', 'D', 'b', 'B', 'o', 'O', 'h', 'H'] := by
  obtain ⟨g, b, ws, n, rfl, hg, -, hv⟩ := h
  have hb := value_base hv
  obtain ⟨d, r, e⟩ : ∃ d r, ws ++ n = d :: r := by
    cases hx : ws ++ n with
    | nil => simp at hx; exact absurd hx.2 (value_ne hv)
    | cons d r => exact ⟨d, r, rfl⟩
  rw [e]
  rcases hg with rfl | rfl | rfl
  · exact .inl ⟨b, d, r, rfl, hb⟩
  · exact .inr ⟨'s', b, d, r, rfl, .inl rfl, hb⟩
  · exact .inr ⟨'S', b, d, r, rfl, .inr rfl, hb⟩

theorem loose_len {u : Str} (h : LooseBased u) : ∃ c d r, u = '\'' :: c :: d :: r ∧ c ≠ '{' := by
  rcases loose_cases h with h | ⟨c, r, rfl, hc⟩ | ⟨c, d, r, rfl, hc, -⟩
  · rcases based_second h with ⟨b, d, r, rfl, hb⟩ | ⟨c, b, d, r, rfl, hc, -⟩
    · exact ⟨b, d, r, rfl, by rintro rfl; revert hb; decide⟩
    · exact ⟨c, b, d :: r, rfl, by rcases hc with rfl | rfl <;> decide⟩
  · obtain ⟨w1, g, w2, b, w3, n, e, hg, h1, h2, h3, hv⟩ := h
    have : r ≠ [] := by
      rintro rfl
      have := congrArg List.length e
      have := List.length_pos_iff.2 (value_ne hv)
      simp at *; omega
    obtain ⟨d, r, rfl⟩ := List.exists_cons_of_ne_nil this
    exact ⟨c, d, r, rfl, by rintro rfl; revert hc; decide⟩
  · exact ⟨c, d, r, rfl, by rcases hc with rfl | rfl <;> decide⟩

theorem edge_head {u : Str} (h : EdgeControl u) : c! "edge[" <+: u := by
  obtain ⟨d, ds, rfl, -⟩ := h
  exact List.prefix_append _ _

/-! ## The class of a text -/

/-- The class of a text behind an apostrophe. -/
def aposCls : Str → Nat
  | [] => 0
  | d :: r => if d = '{' then 0 else if r = [] then 10 else 11
/-- Which kind of rule can match the text, by its first character and some others. -/
def cls : Str → Nat
  | [] => 0
  | c :: s =>
    if SvLex.identStart c then (if '[' ∈ s then 1 else 2)
    else if c = '$' then (if s = [] then 0 else 3)
    else if digit c then
      (if c :: s = c! "1step" then 7 else if '\'' ∈ s then 4 else if (c :: s).getLast? = some 's' then 5 else if 'e' ∈ s ∨ 'E' ∈ s then 6 else if '.' ∈ s then 8 else 9)
    else if c = '\'' then aposCls s
    else if c = '"' then 12
    else if c = '\\' then (if s = [] then 0 else 13)
    else if white c then 14
    else if c = '/' then (if s.head? = some '*' then 15 else 0)
    else 0

/-- The class of a type. -/
def klass : LTy → Nat
  | .EDGE_CONTROL_SPECIFIER => 1
  | .C_IDENTIFIER => 2
  | .SIMPLE_IDENTIFIER => 2
  | .SYSTEM_TF_IDENTIFIER => 3
  | .BASED_NUMBER_WITH_SIZE => 4
  | .TIME_LITERAL => 5
  | .REAL_NUMBER_WITH_EXP => 6
  | .FIXED_POINT_NUMBER => 8
  | .UNSIGNED_NUMBER => 9
  | .UNBASED_UNSIZED_LITERAL => 10
  | .ANY_BASED_NUMBER => 11
  | .STRING_LITERAL => 12
  | .ESCAPED_IDENTIFIER => 13
  | .WHITE_SPACE => 14
  | .BLOCK_COMMENT => 15
  | _ => 0

theorem digit_start {c : Char} (h : digit c = true) : SvLex.identStart c = false ∧ c ≠ '$' ∧ c ≠ '\'' ∧ c ≠ '"' ∧ c ≠ '\\' ∧ c ≠ '/' ∧ white c = false := by
  have key : ∀ c ∈ (List.range' 48 10).map Char.ofNat, SvLex.identStart c = false ∧ c ≠ '$' ∧ c ≠ '\'' ∧ c ≠ '"' ∧ c ≠ '\\' ∧ c ≠ '/' ∧ white c = false := by decide
  refine key c ?_
  simp only [digit, Bool.and_eq_true, decide_eq_true_eq] at h
  have h1 : 48 ≤ c.toNat := h.1
  have h2 : c.toNat ≤ 57 := h.2
  exact List.mem_map.2 ⟨c.toNat, by simp; omega, by simp⟩

theorem identChar_br {c : Char} (h : SvLex.identChar c = true) : c ≠ '[' := by rintro rfl; revert h; decide

theorem cls_digit_head {c : Char} {s : Str} (h : digit c = true) : cls (c :: s) =
    if c :: s = c! "1step" then 7 else if '\'' ∈ s then 4 else if (c :: s).getLast? = some 's' then 5 else if 'e' ∈ s ∨ 'E' ∈ s then 6 else if '.' ∈ s then 8 else 9 := by
  obtain ⟨h1, h2, h3, -⟩ := digit_start h
  rw [cls, h1, if_neg (by simp), if_neg h2, h, if_pos rfl]

theorem mem_tail {c x : Char} {s : Str} (h : x ∈ c :: s) (hx : c ≠ x) : x ∈ s := by
  rcases List.mem_cons.1 h with rfl | h
  · exact absurd rfl hx
  · exact h

theorem sym_cls : ∀ s ∈ symTexts, cls s = 0 := by decide +kernel
theorem kw_cls : ∀ s ∈ reserved .sv2017 ++ special, cls s = 2 ∨ cls s = 3 ∨ cls s = 7 := by decide +kernel
theorem disagree_ident (v : Version) : ∀ s ∈ disagree v, identB s = true := by cases v <;> decide

theorem ident_cls {w : Str} (h : Ident w) : cls w = 2 := by
  obtain ⟨c, s, rfl, h1, h2⟩ := h
  rw [cls, h1, if_pos rfl, if_neg]
  intro hm
  exact identChar_br (List.all_eq_true.1 h2 _ hm) rfl

/-- A rule that is no keyword matches only texts of its class. -/
theorem text_cls {v : Version} {t : LTy} {w : Str} (h : Text v t w) (ht : ∀ s, t ≠ .kw s) : cls w = klass t := by
  cases t with
  | kw s => exact absurd rfl (ht s)
  | sym s => obtain ⟨rfl, h⟩ := h; exact sym_cls _ h
  | EDGE_CONTROL_SPECIFIER =>
    obtain ⟨r, rfl⟩ := edge_head h
    simp [cls, klass, SvLex.identStart, letter]
  | TIME_LITERAL =>
    obtain ⟨⟨c, s, rfl, h1⟩, h2, h3⟩ := time_chars h
    rw [cls_digit_head h1, if_neg, if_neg, if_pos h3]; rfl
    · intro hm; have := h2 '\'' (by simp [hm]); revert this; decide
    · intro e; have := h2 't' (by rw [e]; decide); revert this; decide
  | ANY_BASED_NUMBER =>
    obtain ⟨c, d, r, rfl, hc⟩ := loose_len h
    simp [cls, aposCls, klass, hc, SvLex.identStart, letter, digit]
  | BASED_NUMBER_WITH_SIZE =>
    obtain ⟨n, b, rfl, hn, hb⟩ := h
    obtain ⟨c, s, rfl, h1, h2⟩ := figures_chars hn
    obtain ⟨x, y, r, rfl, -⟩ := loose_len hb
    rw [List.cons_append, cls_digit_head h1, if_neg, if_pos (by simp)]; rfl
    intro e
    have : '\'' ∈ c! "1step" := by rw [← e]; simp
    revert this; decide
  | REAL_NUMBER_WITH_EXP =>
    obtain ⟨⟨c, s, rfl, h1⟩, h2, h3⟩ := real_chars h
    rw [cls_digit_head h1, if_neg, if_neg, if_neg, if_pos]; rfl
    · have hc : c ≠ 'e' ∧ c ≠ 'E' := by constructor <;> rintro rfl <;> revert h1 <;> decide
      rcases h3 with h3 | h3
      · exact .inl (mem_tail h3 hc.1)
      · exact .inr (mem_tail h3 hc.2)
    · intro e; have := h2 's' (List.mem_of_getLast? e); revert this; decide
    · intro hm; have := h2 '\'' (by simp [hm]); revert this; decide
    · intro e; have := h2 't' (by rw [e]; decide); revert this; decide
  | FIXED_POINT_NUMBER =>
    obtain ⟨c, s, rfl, h1, h2⟩ := mantissa_chars (.inr h)
    have hd : '.' ∈ s := by
      obtain ⟨i, f, e, -⟩ := h
      exact mem_tail (c := c) (by rw [e]; simp) (by rintro rfl; revert h1; decide)
    rw [cls_digit_head h1, if_neg, if_neg, if_neg, if_neg, if_pos hd]; rfl
    · rintro (hm | hm)
      · have := h2 'e' (by simp [hm]); revert this; decide
      · have := h2 'E' (by simp [hm]); revert this; decide
    · intro e; have := h2 's' (List.mem_of_getLast? e); revert this; decide
    · intro hm; have := h2 '\'' (by simp [hm]); revert this; decide
    · intro e; have := h2 't' (by rw [e]; decide); revert this; decide
  | UNSIGNED_NUMBER =>
    obtain ⟨c, s, rfl, h1, h2⟩ := figures_chars h
    have hx : ∀ x ∈ ['e', 'E', 's', '\'', 't', '.'], x ∉ c :: s := by
      intro x hx hm
      rcases h2 x hm with h | h
      · revert hx h; simp only [List.mem_cons, List.not_mem_nil, or_false]; rintro (rfl | rfl | rfl | rfl | rfl | rfl) <;> decide
      · subst h; revert hx; decide
    rw [cls_digit_head h1, if_neg, if_neg, if_neg, if_neg, if_neg]; rfl
    · exact fun hm => hx '.' (by decide) (by simp [hm])
    · rintro (hm | hm)
      · exact hx 'e' (by decide) (by simp [hm])
      · exact hx 'E' (by decide) (by simp [hm])
    · intro e; exact hx 's' (by decide) (List.mem_of_getLast? e)
    · exact fun hm => hx '\'' (by decide) (by simp [hm])
    · intro e; exact hx 't' (by decide) (by rw [e]; decide)
  | UNBASED_UNSIZED_LITERAL =>
    have key : ∀ w ∈ unbased, cls w = 10 := by decide
    exact key w h
  | STRING_LITERAL => obtain ⟨b, rfl, -⟩ := h; simp [cls, klass, SvLex.identStart, letter, digit]
  | C_IDENTIFIER => exact ident_cls h.1
  | ESCAPED_IDENTIFIER =>
    obtain ⟨n, ws, rfl, -, h, -⟩ := h
    simp [cls, klass, SvLex.identStart, letter, digit, h]
  | SIMPLE_IDENTIFIER => exact ident_cls h
  | SYSTEM_TF_IDENTIFIER => obtain ⟨s, rfl, h, -⟩ := h; simp [cls, klass, SvLex.identStart, letter, h]
  | BLOCK_COMMENT =>
    obtain ⟨r, rfl⟩ := block_head h
    simp [cls, klass, SvLex.identStart, letter, digit, white]
  | WHITE_SPACE =>
    obtain ⟨h1, h2⟩ := h
    obtain ⟨c, s, rfl⟩ := List.exists_cons_of_ne_nil h1
    simp at h2
    have : c ∈ [' ', '\t', '\n', '\r', '\x0c'] := by simpa [white] using h2.1
    simp only [List.mem_cons, List.not_mem_nil, or_false] at this
    rcases this with rfl | rfl | rfl | rfl | rfl <;> simp [cls, klass, SvLex.identStart, letter, digit, white]
  | _ => exact h.elim

end Verif.Sv
