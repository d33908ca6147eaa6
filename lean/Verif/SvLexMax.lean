import Verif.SvLexElem
/-!
# The SystemVerilog lexer takes the elements of a text
-/
namespace Verif.Sv
open Verif.Antlr Verif.Antlr.Re Verif.Spec Verif.Spec.SvLex
open Verif.Vhdl (L noEof L_eps L_set L_non L_rng L_seq L_alt L_opt L_star L_lit L_alts L_empty Cls take_syms longest_le longest_max longest_none' pick_filter pick_max
  split_at longer pref_head longest_bound longest_ge pick_skip)

/-! ## Elements and texts -/

/-- An element that the lexer knows is a text of its type. -/
theorem plain_text {v : Version} {t : LTy} {w : Str} (h : Plain v t w) (hk : t = .STRING_LITERAL → ∀ b, w = '"' :: b ++ ['"'] → known b = true) : Text v t w := by
  cases t with
  | kw s => exact ⟨h.1, h.2.elim .inl fun h => .inr (.inl h)⟩
  | sym s => exact ⟨h.1, all_sym s (symbols_all h.2)⟩
  | C_IDENTIFIER => exact ⟨h.1, h.2.1⟩
  | SIMPLE_IDENTIFIER => exact h.1
  | SYSTEM_TF_IDENTIFIER => exact h.1
  | ANY_BASED_NUMBER => exact based_loose h
  | BASED_NUMBER_WITH_SIZE => obtain ⟨n, b, e, h1, h2⟩ := h; exact ⟨n, b, e, h1, based_loose h2⟩
  | STRING_LITERAL => obtain ⟨b, e, h1⟩ := h; exact ⟨b, e, h1, hk rfl b e⟩
  | _ => first | exact h | exact h.elim

theorem word_cls {v : Version} {s : Str} (h : s ∈ reserved v ∨ s ∈ special) : cls s = 2 ∨ cls s = 3 ∨ cls s = 7 :=
  kw_cls s (List.mem_append.2 (h.imp reserved_2017 id))

theorem ident_isPlain (v : Version) {u : Str} (h : Ident u) : ∃ t, Plain v t u := by
  by_cases h1 : u ∈ reserved v ∨ u ∈ special
  · exact ⟨.kw u, rfl, h1⟩
  · rw [not_or] at h1
    by_cases h2 : '$' ∈ u
    · exact ⟨.SIMPLE_IDENTIFIER, h, h2, h1⟩
    · exact ⟨.C_IDENTIFIER, h, h2, h1⟩

theorem system_plain (v : Version) {u : Str} (h : System u) : ∃ t, Plain v t u := by
  by_cases h1 : u ∈ special
  · exact ⟨.kw u, rfl, .inr h1⟩
  · exact ⟨.SYSTEM_TF_IDENTIFIER, h, h1⟩

/-- The class tells the type of an element. -/
theorem plain_cls {v : Version} {t : LTy} {w : Str} (h : Plain v t w) (ht : ∀ s, t ≠ .kw s) : cls w = klass t := by
  by_cases hs : t = .STRING_LITERAL
  · subst hs; obtain ⟨b, rfl, -⟩ := h; simp [cls, klass, SvLex.identStart, letter, digit]
  · exact text_cls (plain_text h fun e => absurd e hs) ht

theorem plain_ne {v : Version} {t : LTy} {w : Str} (h : Plain v t w) : w ≠ [] := by
  rintro rfl
  have key : [] ∉ reserved .sv2017 ++ special := by decide +kernel
  have key2 : [] ∉ allSymbols := by decide +kernel
  cases t with
  | kw s => obtain ⟨rfl, h⟩ := h; exact key (List.mem_append.2 (h.imp reserved_2017 id))
  | sym s => obtain ⟨rfl, h⟩ := h; exact key2 (symbols_all h)
  | STRING_LITERAL => obtain ⟨b, e, h1⟩ := h; cases e
  | UNBASED_UNSIZED_LITERAL => revert h; simp only [Plain]; decide
  | _ => first | exact h.elim | exact absurd (plain_cls h (by simp)) (by decide)

/-- Class of keywords: digits only `1step`, dollar, letters. -/
theorem plain_class {v : Version} {t : LTy} {w : Str} (h : Plain v t w) : (t = .kw w ∧ (cls w = 2 ∨ cls w = 3 ∨ cls w = 7)) ∨ ((∀ s, t ≠ .kw s) ∧ cls w = klass t) := by
  by_cases hk : ∃ s, t = .kw s
  · obtain ⟨s, rfl⟩ := hk
    obtain ⟨rfl, h⟩ := h
    exact .inl ⟨rfl, word_cls h⟩
  · rw [not_exists] at hk
    exact .inr ⟨hk, plain_cls h hk⟩

theorem cls_apos {c : Char} {s : Str} : cls ('\'' :: c :: s) = if c = '{' then 0 else if s = [] then 10 else 11 := by
  simp [cls, aposCls, SvLex.identStart, letter, digit]

/-- The elements beginning with an apostrophe. -/
theorem apos_plain {v : Version} {t : LTy} {w : Str} (h : Plain v t ('\'' :: w)) : (t = .sym (c! "'") ∧ w = []) ∨ (t = .sym (c! "'{") ∧ w = ['{']) ∨
    (t = .UNBASED_UNSIZED_LITERAL ∧ '\'' :: w ∈ unbased) ∨ (t = .ANY_BASED_NUMBER ∧ Based ('\'' :: w)) := by
  have hk : cls ('\'' :: w) = 0 ∨ cls ('\'' :: w) = 10 ∨ cls ('\'' :: w) = 11 := by
    cases w with
    | nil => left; decide
    | cons c s => rw [cls_apos]; split <;> [simp; (split <;> simp)]
  rcases plain_class h with ⟨-, h'⟩ | ⟨hnk, h'⟩
  · omega
  · rw [h'] at hk
    cases t with
    | sym s =>
      obtain ⟨rfl, h⟩ := h
      have key : ∀ s ∈ allSymbols, s.head? = some '\'' → s = c! "'" ∨ s = c! "'{" := by decide +kernel
      rcases key _ (symbols_all h) rfl with e | e
      · left; rw [e]; exact ⟨rfl, by simpa using e⟩
      · right; left; rw [e]; exact ⟨rfl, by simpa using e⟩
    | UNBASED_UNSIZED_LITERAL => exact .inr (.inr (.inl ⟨rfl, h⟩))
    | ANY_BASED_NUMBER => exact .inr (.inr (.inr ⟨rfl, h⟩))
    | kw s => exact absurd rfl (hnk s)
    | _ => first | exact h.elim | (simp [klass] at hk)

/-- Characters with which only symbols (and comments) begin. -/
def symHead (c : Char) : Bool := !(SvLex.identStart c || c == '$' || digit c || c == '\'' || c == '"' || c == '\\' || white c)
theorem cls_symHead {c : Char} {s : Str} (h : symHead c = true) : cls (c :: s) = 0 ∨ cls (c :: s) = 15 := by
  simp [symHead] at h
  simp only [cls, h, Bool.false_eq_true, if_false]
  repeat' split
  all_goals simp
theorem symHead_plain {v : Version} {t : LTy} {c : Char} {w : Str} (h : Plain v t (c :: w)) (hc : symHead c = true) : t = .sym (c :: w) := by
  have hk := cls_symHead (s := w) hc
  rcases plain_class h with ⟨-, h'⟩ | ⟨hnk, h'⟩
  · omega
  · rw [h'] at hk
    cases t with
    | sym s => rw [h.1]
    | kw s => exact absurd rfl (hnk s)
    | _ => first | exact h.elim | (simp [klass] at hk)

/-! ## Nothing is longer than an element -/

section
variable {v : Version} {t : LTy} {w s : Str}

theorem not_loose_head {c : Char} {r : Str} (hb : Based ('\'' :: c :: r)) : white c = false := by
  rcases based_second hb with ⟨b, d, r', e, h⟩ | ⟨x, b, d, r', e, h, -⟩
  · have := (List.cons.inj (List.cons.inj e).2).1; subst this
    simp only [List.mem_cons, List.not_mem_nil, or_false] at h
    rcases h with rfl | rfl | rfl | rfl | rfl | rfl | rfl | rfl <;> decide
  · have := (List.cons.inj (List.cons.inj e).2).1; subst this
    rcases h with rfl | rfl <;> decide

/-- A based number and what stands behind it do not begin as a number with white space. -/
theorem based_not_loose {u : Str} (hb : Based w) (hu : u <+: w ++ s) (h : (∃ c r, u = '\'' :: c :: r ∧ white c = true) ∨
    ∃ c d r, u = '\'' :: c :: d :: r ∧ (c = 's' ∨ c = 'S') ∧ white d = true) : False := by
  have hbase : ∀ b ∈ ['d', 'D', 'b', 'B', 'o', 'O', 'h', 'H'], white b = false ∧ b ≠ 's' ∧ b ≠ 'S' := by decide
  rcases based_second hb with ⟨b, d, r', rfl, hb'⟩ | ⟨x, b, d, r', rfl, hx, hb'⟩
  · rcases h with ⟨c, r, rfl, hc⟩ | ⟨c, d, r, rfl, hc, -⟩
    · simp at hu
      rw [hu.1, (hbase b hb').1] at hc; cases hc
    · simp at hu
      rcases hc with rfl | rfl
      · exact (hbase b hb').2.1 hu.1.symm
      · exact (hbase b hb').2.2 hu.1.symm
  · rcases h with ⟨c, r, rfl, hc⟩ | ⟨c, d, r, rfl, -, hd⟩
    · simp at hu
      rw [hu.1] at hc
      rcases hx with rfl | rfl <;> revert hc <;> decide
    · simp at hu
      rw [hu.2.1, (hbase b hb').1] at hd; cases hd

theorem max_based {u : Str} (ht : Plain v t w) (ha : Apart v false w s) (hr : Limits.supported.elem v false t w s) (hu : u <+: w ++ s) (h : LooseBased u) :
    u.length ≤ w.length := by
  rcases loose_cases h with hb | hl
  · exact ha.1 .ANY_BASED_NUMBER u hb hu
  · exfalso
    obtain ⟨c, d, r, e, -⟩ := loose_len h
    obtain ⟨x, w', rfl⟩ := List.exists_cons_of_ne_nil (plain_ne ht)
    have hx : x = '\'' := by rw [e] at hu; simp at hu; exact hu.1.symm
    subst hx
    rcases apos_plain ht with ⟨rfl, rfl⟩ | ⟨rfl, rfl⟩ | ⟨rfl, hw⟩ | ⟨rfl, hw⟩
    · have := (hr rfl).2.1 rfl
      rw [e] at hu
      obtain ⟨z, ez⟩ := hu
      simp at ez
      have hc := this c (by rw [← ez]; simp)
      rcases hl with ⟨c', r', e', hc'⟩ | ⟨c', d', r', e', hc', -⟩ <;> rw [e] at e' <;> have e1 := (List.cons.inj (List.cons.inj e').2).1 <;> subst e1
      · simp [loose, hc'] at hc
      · rcases hc' with rfl | rfl <;> simp [loose] at hc
    · rw [e] at hu; simp at hu
      rcases hl with ⟨c', r', e', hc'⟩ | ⟨c', d', r', e', hc', -⟩ <;> rw [e] at e' <;> have e1 := (List.cons.inj (List.cons.inj e').2).1 <;> subst e1
      · rw [hu.1] at hc'; revert hc'; decide
      · rw [hu.1] at hc'; revert hc'; decide
    · have key : ∀ w ∈ unbased, ∀ x ∈ w.tail, white x = false ∧ x ≠ 's' ∧ x ≠ 'S' := by decide
      have key2 : ∀ w ∈ unbased, w.tail ≠ [] := by decide
      obtain ⟨y, w'', rfl⟩ := List.exists_cons_of_ne_nil (key2 _ hw)
      have hy := key _ hw y (by simp)
      rw [e] at hu; simp at hu
      rcases hl with ⟨c', r', e', hc'⟩ | ⟨c', d', r', e', hc', -⟩ <;> rw [e] at e' <;> have e1 := (List.cons.inj (List.cons.inj e').2).1 <;> subst e1
      · rw [hu.1, hy.1] at hc'; cases hc'
      · rw [hu.1] at hc'; exact hc'.elim hy.2.1 hy.2.2
    · exact based_not_loose hw hu hl

theorem digit_plain {c : Char} {r : Str} (h : Plain v t (c :: r)) (hc : digit c = true) : (t = .kw (c! "1step") ∧ c :: r = c! "1step") ∨ (t = .UNSIGNED_NUMBER ∧ figures digit (c :: r) = true) ∨
    (t = .FIXED_POINT_NUMBER ∧ Fixed (c :: r)) ∨ (t = .REAL_NUMBER_WITH_EXP ∧ Real (c :: r)) ∨ (t = .TIME_LITERAL ∧ Time (c :: r)) ∨ (t = .BASED_NUMBER_WITH_SIZE ∧ Sized (c :: r)) := by
  have hk := cls_digit_head (s := r) hc
  have hk' : cls (c :: r) ∈ [4, 5, 6, 7, 8, 9] ∧ (cls (c :: r) = 7 → c :: r = c! "1step") := by
    rw [hk]; repeat' split
    all_goals simp_all
  rcases plain_class h with ⟨rfl, h'⟩ | ⟨hnk, h'⟩
  · left
    have e := hk'.2 (by rcases h' with h' | h' | h' <;> first | exact h' | (rw [h'] at hk'; simp at hk'))
    exact ⟨by rw [e], e⟩
  · rw [h'] at hk'
    cases t with
    | UNSIGNED_NUMBER => exact .inr (.inl ⟨rfl, h⟩)
    | FIXED_POINT_NUMBER => exact .inr (.inr (.inl ⟨rfl, h⟩))
    | REAL_NUMBER_WITH_EXP => exact .inr (.inr (.inr (.inl ⟨rfl, h⟩)))
    | TIME_LITERAL => exact .inr (.inr (.inr (.inr (.inl ⟨rfl, h⟩))))
    | BASED_NUMBER_WITH_SIZE => exact .inr (.inr (.inr (.inr (.inr ⟨rfl, h⟩))))
    | kw s => exact absurd rfl (hnk s)
    | _ => first | exact h.elim | (have := hk'.1; simp [klass] at this)

theorem max_sized {u : Str} (ht : Plain v t w) (ha : Apart v false w s) (hr : Limits.supported.elem v false t w s) (hu : u <+: w ++ s)
    (h : ∃ n b, u = n ++ b ∧ figures digit n = true ∧ LooseBased b) : u.length ≤ w.length := by
  obtain ⟨n, b, rfl, hn, hb⟩ := h
  rcases loose_cases hb with hb' | hl
  · exact ha.1 .BASED_NUMBER_WITH_SIZE _ ⟨n, b, rfl, hn, hb'⟩ hu
  · exfalso
    have hnw : n <+: w ++ s := (List.prefix_append _ _).trans hu
    have hlen := ha.1 .UNSIGNED_NUMBER n hn hnw
    obtain ⟨w', rfl⟩ := List.prefix_of_prefix_length_le hnw (List.prefix_append w s) hlen
    rw [List.append_assoc] at hu
    have hu' : b <+: w' ++ s := (List.prefix_append_right_inj n).1 hu
    obtain ⟨c, d, r, e, -⟩ := loose_len hb
    obtain ⟨y, n', e', hy, hall⟩ := figures_chars hn
    have ht' : Plain v t (y :: (n' ++ w')) := by rw [e'] at ht; exact ht
    have hq : '\'' ∉ n := by
      intro h; rcases hall _ h with h | h <;> revert h <;> decide
    rcases List.eq_nil_or_concat w' with hw0 | ⟨_, _, hw0⟩
    · subst hw0
      rw [List.append_nil] at *
      rcases digit_plain (by rw [e'] at ht; exact ht) hy with ⟨-, h⟩ | ⟨rfl, -⟩ | ⟨rfl, h⟩ | ⟨rfl, h⟩ | ⟨rfl, h⟩ | ⟨rfl, h⟩
      · rw [← e'] at h; rw [h] at hn; revert hn; decide
      · have := (hr rfl).2.2.1 rfl c
        obtain ⟨z, ez⟩ := hu'
        rw [e] at ez
        have := this (d :: (r ++ z)) (by simpa using ez.symm)
        rcases hl with ⟨c', r', e2, hc'⟩ | ⟨c', d', r', e2, hc', -⟩ <;> rw [e] at e2 <;> have e1 := (List.cons.inj (List.cons.inj e2).2).1 <;> subst e1
        · simp [loose, hc'] at this
        · rcases hc' with rfl | rfl <;> simp [loose] at this
      all_goals
        have h1 := plain_cls ht (by simp)
        have h2 := plain_cls (v := v) (t := .UNSIGNED_NUMBER) hn (by simp)
        rw [h1] at h2; revert h2; decide
    · have hwne : w' ≠ [] := by rw [hw0]; simp
      obtain ⟨x, w'', rfl⟩ := List.exists_cons_of_ne_nil hwne
      have hx : x = '\'' := by rw [e] at hu'; simp at hu'; exact hu'.1.symm
      subst hx
      have hk : cls (n ++ '\'' :: w'') = 4 := by
        rw [e', List.cons_append, cls_digit_head hy, if_neg, if_pos (by simp)]
        intro he
        have : '\'' ∈ c! "1step" := by rw [← he]; simp
        revert this; decide
      rcases digit_plain ht' hy with ⟨-, h⟩ | ⟨rfl, -⟩ | ⟨rfl, h⟩ | ⟨rfl, h⟩ | ⟨rfl, h⟩ | ⟨rfl, h⟩
      · have : '\'' ∈ c! "1step" := by rw [← h]; simp
        revert this; decide
      · have h1 := plain_cls ht (by simp); rw [hk] at h1; revert h1; decide
      · have h1 := plain_cls ht (by simp); rw [hk] at h1; revert h1; decide
      · have h1 := plain_cls ht (by simp); rw [hk] at h1; revert h1; decide
      · have h1 := plain_cls ht (by simp); rw [hk] at h1; revert h1; decide
      · obtain ⟨n2, b2, e2, hn2, hb2⟩ := ht
        obtain ⟨c2, d2, r2, e3, -⟩ := loose_len (based_loose hb2)
        have hq2 : '\'' ∉ n2 := by
          obtain ⟨-, -, -, -, hall⟩ := figures_chars hn2
          intro h; rcases hall _ h with h | h <;> revert h <;> decide
        have hne : ∀ {l : Str}, '\'' ∉ l → l.all (· != '\'') = true := by
          intro l hl; rw [List.all_eq_true]; intro a ha
          simp only [bne_iff_ne, ne_eq]; rintro rfl; exact hl ha
        rw [e3] at e2
        obtain ⟨-, -, e4⟩ := split_at (· != '\'') (hne hq) (hne hq2) (by simp) (by simp) e2
        refine based_not_loose (w := '\'' :: w'') (s := s) (by rw [e4, ← e3]; exact hb2) hu' hl

theorem max_edge {u : Str} (ht : Plain v t w) (ha : Apart v false w s) (hr : Limits.supported.elem v false t w s) (hu : u <+: w ++ s)
    (h : EdgeControl u) : u.length ≤ w.length := by
  exfalso
  have hp := (edge_head h).trans hu
  have hi : Ident (c! "edge") := ident_iff.2 (by decide)
  obtain ⟨t', ht'⟩ := ident_isPlain v hi
  have hpe : c! "edge" <+: w ++ s := (show c! "edge" <+: c! "edge[" from ⟨['['], rfl⟩).trans hp
  have hlen := ha.1 t' _ ht' hpe
  obtain ⟨w', rfl⟩ := List.prefix_of_prefix_length_le hpe (List.prefix_append w s) hlen
  have hp' : ['['] <+: w' ++ s := by
    have : c! "edge" ++ ['['] <+: c! "edge" ++ (w' ++ s) := by rw [← List.append_assoc]; exact hp
    exact (List.prefix_append_right_inj _).1 this
  cases w' with
  | nil =>
    have hkw : t = .kw (c! "edge") := by
      have hk : cls (c! "edge") = 2 := by decide
      have hres : c! "edge" ∈ reserved v := by
        have h : c! "edge" ∈ words1995 := by decide
        cases v <;> simp only [reserved, List.mem_append] <;> tauto
      rcases plain_class ht with ⟨rfl, -⟩ | ⟨hnk, h'⟩
      · rfl
      · rw [List.append_nil, hk] at h'
        cases t with
        | C_IDENTIFIER => exact absurd hres ht.2.2.1
        | SIMPLE_IDENTIFIER => exact absurd hres ht.2.2.1
        | kw s => exact absurd rfl (hnk s)
        | _ => first | exact ht.elim | (simp [klass] at h')
    have := (hr rfl).2.2.2.1 hkw
    obtain ⟨z, e⟩ := hp'
    have := this '[' (by rw [← show '[' :: z = s by simpa using e]; rfl)
    simp at this
  | cons x w' =>
    have hx : x = '[' := by simp at hp'; exact hp'.symm
    subst hx
    have hk : cls (c! "edge" ++ '[' :: w') = 1 := by simp [cls, SvLex.identStart, letter]
    rcases plain_class ht with ⟨-, h'⟩ | ⟨hnk, h'⟩
    · omega
    · rw [hk] at h'
      cases t with
      | kw s => exact absurd rfl (hnk s)
      | _ => first | exact ht.elim | (simp [klass] at h')

theorem max_sym {u : Str} (ht : Plain v t w) (hr : Limits.supported.elem v false t w s) (hu : u <+: w ++ s) (h : u ∈ symTexts) : u.length ≤ w.length := by
  have hw := List.length_pos_iff.2 (plain_ne ht)
  rcases sym_all u h with rfl | h
  · exact hw
  · by_cases hs : t = .sym w
    · exact (hr rfl).2.2.2.2.2 u h hs hu
    · have key : ∀ d ∈ allSymbols, d.length ≤ 1 ∨ d = c! "'{" ∨ symHead (d.headD ' ') = true := by decide +kernel
      rcases key u h with h | rfl | h
      · omega
      · obtain ⟨x, w', rfl⟩ := List.exists_cons_of_ne_nil (plain_ne ht)
        have hx : x = '\'' := by simp at hu; exact hu.1.symm
        subst hx
        rcases apos_plain ht with ⟨rfl, rfl⟩ | ⟨rfl, rfl⟩ | ⟨rfl, hw⟩ | ⟨rfl, hw⟩
        · exact absurd rfl hs
        · exact absurd rfl hs
        · have key2 : ∀ w ∈ unbased, 2 ≤ w.length := by decide
          exact key2 _ hw
        · obtain ⟨c, d, r, e, -⟩ := loose_len (based_loose hw)
          rw [e]; simp
      · obtain ⟨x, w', rfl⟩ := List.exists_cons_of_ne_nil (plain_ne ht)
        have hx : u.headD ' ' = x := by
          cases u with
          | nil => exact absurd h (by decide)
          | cons c u => simp at hu; exact hu.1
        rw [hx] at h
        exact absurd (symHead_plain ht h) hs

end

end Verif.Sv
