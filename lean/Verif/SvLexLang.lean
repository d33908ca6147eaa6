import Verif.Sv.Lexer
import Verif.Spec.SvLex
import Verif.VhdlLexMain
/-!
# The languages of the rules of the SystemVerilog lexer
-/
namespace Verif.Sv
open Verif.Antlr Verif.Antlr.Re Verif.Spec Verif.Spec.SvLex
open Verif.Vhdl (L noEof L_eps L_set L_non L_rng L_seq L_alt L_opt L_star L_star_nil L_star_cons L_star_ind L_lit L_alts L_empty Cls cls_set cls_rng cls_alt Cls.congr)

/-! ## Classes of characters -/

theorem cls_eq {r : Re} {p q : Char → Bool} (h : Cls r p) (e : ∀ c, p c = true ↔ q c = true) : Cls r q :=
  h.congr fun c => Bool.eq_iff_iff.2 (e c)

theorem cls_digit : Cls DECIMAL_DIGIT digit := cls_rng _ _
theorem cls_white : Cls (set [' ', '\t', '\n', '\r', '\x0c']) white := cls_set _
theorem cls_xz : Cls (alt X_DIGIT Z_DIGIT) xz := by
  refine cls_eq (cls_alt (cls_set _) (cls_alt (cls_set _) (cls_set _))) fun c => ?_
  simp [xz]; tauto
theorem cls_x : Cls X_DIGIT fun c => ['x', 'X'].contains c := cls_set _
theorem cls_z : Cls Z_DIGIT fun c => ['?', 'z', 'Z'].contains c := by
  refine cls_eq (cls_alt (cls_set _) (cls_set _)) fun c => ?_
  simp
theorem cls_bin : Cls BINARY_DIGIT binDigit := by
  refine cls_eq (cls_alt cls_x (cls_alt cls_z (cls_set _))) fun c => ?_
  simp [binDigit, xz]; tauto
theorem cls_oct : Cls OCTAL_DIGIT octDigit := by
  refine cls_eq (cls_alt cls_x (cls_alt cls_z (cls_rng _ _))) fun c => ?_
  simp [octDigit, xz]; tauto
theorem cls_hex : Cls HEX_DIGIT hexDigit := by
  refine cls_eq (cls_alt cls_x (cls_alt cls_z (cls_alt (cls_rng _ _) (cls_alt (cls_rng _ _) (cls_rng _ _))))) fun c => ?_
  simp [hexDigit, xz, hex, digit]; tauto
theorem cls_hex' : Cls (alts [rng '0' '9', rng 'A' 'F', rng 'a' 'f']) hex := by
  refine cls_eq (cls_alt (cls_rng _ _) (cls_alt (cls_rng _ _) (cls_rng _ _))) fun c => ?_
  simp [hex, digit]; tauto
theorem cls_start : Cls Sv.identStart SvLex.identStart := by
  refine cls_eq (cls_alt (cls_rng _ _) (cls_alt (cls_rng _ _) (cls_set _))) fun c => ?_
  simp [SvLex.identStart, letter]; tauto
/-- Characters of names in C. -/
def cChar (c : Char) : Bool := letter c || digit c || c == '_'
theorem cls_cChar : Cls Sv.identChar cChar := by
  refine cls_eq (cls_alt (cls_rng _ _) (cls_alt (cls_rng _ _) (cls_alt (cls_rng _ _) (cls_set _)))) fun c => ?_
  simp [cChar, letter, digit]; tauto
theorem cls_charD : Cls identCharD SvLex.identChar := by
  refine cls_eq (cls_alt (cls_rng _ _) (cls_alt (cls_rng _ _) (cls_alt (cls_rng _ _) (cls_set _)))) fun c => ?_
  simp [SvLex.identChar, letter, digit]; tauto
theorem cls_printable : Cls (rng '!' '~') printable := cls_rng _ _

theorem L_star_cls {r : Re} {p : Char → Bool} (h : Cls r p) (w : Str) : L (star r) w ↔ w.all p = true := by
  constructor
  · refine L_star_ind (P := fun w => w.all p = true) rfl ?_
    intro u v hu _ hv
    obtain ⟨c, rfl, hc⟩ := (h u).1 hu
    rw [List.all_append, hv]; simp [hc]
  · intro hw
    induction w with
    | nil => exact L_star_nil
    | cons c w ih =>
      simp only [List.all_cons, Bool.and_eq_true] at hw
      exact L_star_cons (u := [c]) ((h _).2 ⟨c, rfl, hw.1⟩) (ih hw.2)

theorem L_plus_cls {r : Re} {p : Char → Bool} (h : Cls r p) (w : Str) : L (plus r) w ↔ w ≠ [] ∧ w.all p = true := by
  rw [plus, L_seq]
  constructor
  · rintro ⟨u, v, rfl, hu, hv⟩
    obtain ⟨c, rfl, hc⟩ := (h u).1 hu
    rw [L_star_cls h] at hv
    simp [hc] at *; exact hv
  · rintro ⟨h1, h2⟩
    cases w with
    | nil => exact absurd rfl h1
    | cons c w =>
      simp only [List.all_cons, Bool.and_eq_true] at h2
      exact ⟨[c], w, rfl, (h _).2 ⟨c, rfl, h2.1⟩, (L_star_cls h w).2 h2.2⟩

theorem L_cons {r a : Re} {p : Char → Bool} (h : Cls r p) (w : Str) : L (seq r a) w ↔ ∃ c s, w = c :: s ∧ p c = true ∧ L a s := by
  rw [L_seq]
  constructor
  · rintro ⟨u, v, rfl, hu, hv⟩
    obtain ⟨c, rfl, hc⟩ := (h u).1 hu
    exact ⟨c, v, rfl, hc, hv⟩
  · rintro ⟨c, s, rfl, hc, hs⟩
    exact ⟨[c], s, rfl, (h _).2 ⟨c, rfl, hc⟩, hs⟩

theorem L_char {x : Char} {a : Re} (w : Str) : L (seq (set [x]) a) w ↔ ∃ s, w = x :: s ∧ L a s := by
  rw [L_cons (cls_set [x])]
  constructor
  · rintro ⟨c, s, rfl, hc, hs⟩
    simp at hc; subst hc
    exact ⟨s, rfl, hs⟩
  · rintro ⟨s, rfl, hs⟩
    exact ⟨x, s, rfl, by simp, hs⟩

/-! ## Numbers -/

theorem L_digits {r : Re} {p : Char → Bool} (h : Cls r p) (w : Str) : L (digits r) w ↔ figures p w = true := by
  have hu : Cls (alt UNDERSCORE r) fun c => p c || c == '_' := cls_eq (cls_alt (cls_set _) h) fun c => by simp; tauto
  rw [digits, L_cons h]
  constructor
  · rintro ⟨c, s, rfl, hc, hs⟩
    rw [L_star_cls hu] at hs
    simp only [figures, hc, hs]; rfl
  · intro hw
    cases w with
    | nil => cases hw
    | cons c s =>
      rw [figures, Bool.and_eq_true] at hw
      exact ⟨c, s, rfl, hw.1, (L_star_cls hu s).2 hw.2⟩

theorem L_unsigned (w : Str) : L UNSIGNED_NUMBERr w ↔ figures digit w = true := L_digits cls_digit w

theorem L_fixed (w : Str) : L FIXED_POINT_NUMBERr w ↔ Fixed w := by
  rw [FIXED_POINT_NUMBERr, L_seq]
  constructor
  · rintro ⟨u, v, rfl, hu, hv⟩
    obtain ⟨s, rfl, hs⟩ := (L_char v).1 hv
    exact ⟨u, s, rfl, (L_unsigned u).1 hu, (L_unsigned s).1 hs⟩
  · rintro ⟨i, f, rfl, hi, hf⟩
    exact ⟨i, '.' :: f, rfl, (L_unsigned i).2 hi, (L_char _).2 ⟨f, rfl, (L_unsigned f).2 hf⟩⟩

theorem L_time (w : Str) : L TIME_LITERALr w ↔ Time w := by
  rw [TIME_LITERALr, L_seq]
  have hu : ∀ u, L TIME_UNIT u ↔ u ∈ units := by
    intro u
    rw [TIME_UNIT, L_alts]
    constructor
    · rintro ⟨r, hr, h⟩
      simp only [List.mem_cons, List.not_mem_nil, or_false] at hr
      rcases hr with rfl | rfl | rfl | rfl | rfl | rfl <;> rw [L_lit] at h <;> subst h <;> decide
    · intro h
      simp only [units, List.mem_cons, List.not_mem_nil, or_false] at h
      rcases h with rfl | rfl | rfl | rfl | rfl | rfl
      exacts [⟨_, by simp, L_lit.2 rfl⟩, ⟨lit ['m', 's'], by simp, L_lit.2 rfl⟩, ⟨lit ['u', 's'], by simp, L_lit.2 rfl⟩, ⟨lit ['n', 's'], by simp, L_lit.2 rfl⟩,
        ⟨lit ['p', 's'], by simp, L_lit.2 rfl⟩, ⟨lit ['f', 's'], by simp, L_lit.2 rfl⟩]
  constructor
  · rintro ⟨u, v, rfl, h1, h2⟩
    rw [L_alt, L_unsigned, L_fixed] at h1
    exact ⟨u, v, rfl, h1, (hu v).1 h2⟩
  · rintro ⟨u, v, rfl, h1, h2⟩
    exact ⟨u, v, rfl, by rw [L_alt, L_unsigned, L_fixed]; exact h1, (hu v).2 h2⟩

theorem L_real (w : Str) : L REAL_NUMBER_WITH_EXPr w ↔ Real w := by
  have hsign : ∀ g, L (opt (alt (set ['+']) (set ['-']))) g ↔ g = [] ∨ g = ['+'] ∨ g = ['-'] := by
    intro g
    rw [L_opt, L_alt, L_set, L_set]
    constructor
    · rintro ((⟨c, rfl, hc⟩ | ⟨c, rfl, hc⟩) | rfl)
      · simp at hc; simp [hc]
      · simp at hc; simp [hc]
      · simp
    · rintro (rfl | rfl | rfl)
      · exact .inr rfl
      · exact .inl (.inl ⟨'+', rfl, by simp⟩)
      · exact .inl (.inr ⟨'-', rfl, by simp⟩)
  have hfrac : ∀ f, L (opt (seq (set ['.']) UNSIGNED_NUMBERr)) f ↔ f = [] ∨ ∃ j, f = '.' :: j ∧ figures digit j = true := by
    intro f
    rw [L_opt, L_char]
    simp only [L_unsigned]
    exact or_comm
  have he := cls_set ['e', 'E']
  simp only [REAL_NUMBER_WITH_EXPr, seqs]
  rw [L_seq]
  constructor
  · rintro ⟨i, v, rfl, h1, h2⟩
    obtain ⟨f, v, rfl, h3, h4⟩ := L_seq.1 h2
    obtain ⟨e, v, rfl, h5, h6⟩ := (L_cons he v).1 h4
    obtain ⟨g, x, rfl, h7, h8⟩ := L_seq.1 h6
    rw [L_unsigned] at h1 h8
    refine ⟨i ++ f, e, g, x, by simp, ?_, by simpa using h5, (hsign g).1 h7, h8⟩
    rcases (hfrac f).1 h3 with rfl | ⟨j, rfl, hj⟩
    · left; simpa using h1
    · exact .inr ⟨i, j, rfl, h1, hj⟩
  · rintro ⟨m, e, g, x, rfl, h1, h2, h3, h4⟩
    have ht : L (seq (set ['e', 'E']) (seq (opt (alt (set ['+']) (set ['-']))) UNSIGNED_NUMBERr)) (e :: (g ++ x)) :=
      (L_cons he _).2 ⟨e, _, rfl, by simpa using h2, L_seq.2 ⟨g, x, rfl, (hsign g).2 h3, (L_unsigned x).2 h4⟩⟩
    rcases h1 with h1 | ⟨i, f, rfl, hi, hf⟩
    · exact ⟨m, _, rfl, (L_unsigned m).2 h1, L_seq.2 ⟨[], _, rfl, (hfrac _).2 (.inl rfl), ht⟩⟩
    · exact ⟨i, '.' :: f ++ e :: (g ++ x), by simp, (L_unsigned i).2 hi, L_seq.2 ⟨'.' :: f, _, rfl, (hfrac _).2 (.inr ⟨f, rfl, hf⟩), ht⟩⟩

theorem L_white (w : Str) : L WHITE_SPACEr w ↔ w ≠ [] ∧ w.all white = true := L_plus_cls cls_white w
theorem L_whiteOpt (w : Str) : L (opt WHITE_SPACEr) w ↔ w.all white = true := by
  rw [L_opt, L_white]
  constructor
  · rintro (h | rfl)
    · exact h.2
    · rfl
  · intro h
    by_cases e : w = []
    · exact .inr e
    · exact .inl ⟨e, h⟩

/-- The base of a number with the letters `l`, with white space. -/
def LooseBase (l : List Char) (w : Str) : Prop := ∃ w1 g w2 b w3, w = '\'' :: (w1 ++ (g ++ (w2 ++ b :: w3))) ∧ (g = [] ∨ g = ['s'] ∨ g = ['S']) ∧
  w1.all white = true ∧ w2.all white = true ∧ w3.all white = true ∧ b ∈ l

theorem L_base (l : List Char) (w : Str) : L (baseRe l) w ↔ LooseBase l w := by
  have hs : ∀ g, L (opt (set ['s', 'S'])) g ↔ g = [] ∨ g = ['s'] ∨ g = ['S'] := by
    intro g
    rw [L_opt, L_set]
    constructor
    · rintro (⟨c, rfl, hc⟩ | rfl)
      · simp at hc; rcases hc with rfl | rfl <;> simp
      · simp
    · rintro (rfl | rfl | rfl)
      · exact .inr rfl
      · exact .inl ⟨_, rfl, by simp⟩
      · exact .inl ⟨_, rfl, by simp⟩
  simp only [baseRe, seqs]
  rw [L_char]
  constructor
  · rintro ⟨v, rfl, h⟩
    obtain ⟨w1, v, rfl, h1, h⟩ := L_seq.1 h
    obtain ⟨g, v, rfl, h2, h⟩ := L_seq.1 h
    obtain ⟨w2, v, rfl, h3, h⟩ := L_seq.1 h
    obtain ⟨b, w3, rfl, hb, h⟩ := (L_cons (cls_set l) v).1 h
    exact ⟨w1, g, w2, b, w3, rfl, (hs g).1 h2, (L_whiteOpt _).1 h1, (L_whiteOpt _).1 h3, (L_whiteOpt _).1 h, by simpa using hb⟩
  · rintro ⟨w1, g, w2, b, w3, rfl, h1, h2, h3, h4, h5⟩
    exact ⟨_, rfl, L_seq.2 ⟨w1, _, rfl, (L_whiteOpt _).2 h2, L_seq.2 ⟨g, _, rfl, (hs g).2 h1, L_seq.2 ⟨w2, _, rfl, (L_whiteOpt _).2 h3,
      (L_cons (cls_set l) _).2 ⟨b, w3, rfl, by simpa using h5, (L_whiteOpt _).2 h4⟩⟩⟩⟩⟩

theorem L_invalid {r : Re} {p : Char → Bool} (h : Cls r p) (w : Str) : L (seq r (star UNDERSCORE)) w ↔ ∃ c us, w = c :: us ∧ p c = true ∧ us.all (· == '_') = true := by
  have hu : Cls UNDERSCORE (· == '_') := cls_eq (cls_set _) fun c => by simp
  rw [L_cons h]; simp only [L_star_cls hu]

theorem L_based (w : Str) : L ANY_BASED_NUMBERr w ↔ LooseBased w := by
  have key : ∀ (l : List Char) (r : Re) (w : Str), L (seq (baseRe l) r) w ↔ ∃ w1 g w2 b w3 n, w = '\'' :: (w1 ++ (g ++ (w2 ++ b :: (w3 ++ n)))) ∧
      (g = [] ∨ g = ['s'] ∨ g = ['S']) ∧ w1.all white = true ∧ w2.all white = true ∧ w3.all white = true ∧ b ∈ l ∧ L r n := by
    intro l r w
    rw [L_seq]
    constructor
    · rintro ⟨u, n, rfl, hu, hn⟩
      obtain ⟨w1, g, w2, b, w3, rfl, h1, h2, h3, h4, h5⟩ := (L_base l u).1 hu
      exact ⟨w1, g, w2, b, w3, n, by simp, h1, h2, h3, h4, h5, hn⟩
    · rintro ⟨w1, g, w2, b, w3, n, rfl, h1, h2, h3, h4, h5, hn⟩
      exact ⟨_, n, by simp, (L_base l _).2 ⟨w1, g, w2, b, w3, rfl, h1, h2, h3, h4, h5⟩, hn⟩
  rw [ANY_BASED_NUMBERr, L_alts]
  constructor
  · rintro ⟨r, hr, h⟩
    simp only [List.mem_cons, List.not_mem_nil, or_false] at hr
    rcases hr with rfl | rfl | rfl | rfl | rfl | rfl <;> obtain ⟨w1, g, w2, b, w3, n, rfl, h1, h2, h3, h4, h5, hn⟩ := (key _ _ _).1 h <;>
      refine ⟨w1, g, w2, b, w3, n, rfl, h1, h2, h3, h4, ?_⟩ <;> simp only [List.mem_cons, List.not_mem_nil, or_false] at h5
    · exact .inr (.inr (.inl ⟨h5, (L_digits cls_oct n).1 hn⟩))
    · exact .inl ⟨h5, .inl ((L_unsigned n).1 hn)⟩
    · exact .inr (.inl ⟨h5, (L_digits cls_bin n).1 hn⟩)
    · obtain ⟨c, us, rfl, hc, hus⟩ := (L_invalid cls_x n).1 hn
      refine .inl ⟨h5, .inr ⟨c, us, rfl, ?_, hus⟩⟩
      simp [xz] at hc ⊢; tauto
    · obtain ⟨c, us, rfl, hc, hus⟩ := (L_invalid cls_z n).1 hn
      refine .inl ⟨h5, .inr ⟨c, us, rfl, ?_, hus⟩⟩
      simp [xz] at hc ⊢; tauto
    · exact .inr (.inr (.inr ⟨h5, (L_digits cls_hex n).1 hn⟩))
  · rintro ⟨w1, g, w2, b, w3, n, rfl, h1, h2, h3, h4, hv⟩
    rcases hv with ⟨hb, hn | ⟨c, us, rfl, hc, hus⟩⟩ | ⟨hb, hn⟩ | ⟨hb, hn⟩ | ⟨hb, hn⟩
    · exact ⟨seq (baseRe ['d', 'D']) UNSIGNED_NUMBERr, by simp, (key _ _ _).2 ⟨w1, g, w2, b, w3, n, rfl, h1, h2, h3, h4, by simpa using hb, (L_unsigned n).2 hn⟩⟩
    · by_cases hx : ['x', 'X'].contains c = true
      · exact ⟨seq (baseRe ['d', 'D']) (seq X_DIGIT (star UNDERSCORE)), by simp, (key _ _ _).2 ⟨w1, g, w2, b, w3, _, rfl, h1, h2, h3, h4, by simpa using hb,
          (L_invalid cls_x _).2 ⟨c, us, rfl, hx, hus⟩⟩⟩
      · refine ⟨seq (baseRe ['d', 'D']) (seq Z_DIGIT (star UNDERSCORE)), by simp, (key _ _ _).2 ⟨w1, g, w2, b, w3, _, rfl, h1, h2, h3, h4, by simpa using hb,
          (L_invalid cls_z _).2 ⟨c, us, rfl, ?_, hus⟩⟩⟩
        simp [xz] at hc hx ⊢; tauto
    · exact ⟨seq (baseRe ['b', 'B']) (digits BINARY_DIGIT), by simp, (key _ _ _).2 ⟨w1, g, w2, b, w3, n, rfl, h1, h2, h3, h4, by simpa using hb,
        (L_digits cls_bin n).2 hn⟩⟩
    · exact ⟨seq (baseRe ['o', 'O']) (digits OCTAL_DIGIT), by simp, (key _ _ _).2 ⟨w1, g, w2, b, w3, n, rfl, h1, h2, h3, h4, by simpa using hb,
        (L_digits cls_oct n).2 hn⟩⟩
    · exact ⟨seq (baseRe ['h', 'H']) (digits HEX_DIGIT), by simp, (key _ _ _).2 ⟨w1, g, w2, b, w3, n, rfl, h1, h2, h3, h4, by simpa using hb,
        (L_digits cls_hex n).2 hn⟩⟩

theorem L_sized (w : Str) : L (seq UNSIGNED_NUMBERr ANY_BASED_NUMBERr) w ↔ ∃ n b, w = n ++ b ∧ figures digit n = true ∧ LooseBased b := by
  rw [L_seq]; simp only [L_unsigned, L_based]

theorem L_unbased (w : Str) : L UNBASED_UNSIZED_LITERALr w ↔ w ∈ unbased := by
  rw [UNBASED_UNSIZED_LITERALr, L_alts]
  constructor
  · rintro ⟨r, hr, h⟩
    simp only [List.mem_cons, List.not_mem_nil, or_false] at hr
    rcases hr with rfl | rfl | rfl
    · obtain ⟨s, rfl, h'⟩ := (L_char w).1 h
      obtain ⟨c, rfl, hc⟩ := L_set.1 h'
      simp at hc; rcases hc with rfl | rfl | rfl | rfl <;> decide
    · rw [L_lit] at h; subst h; decide
    · rw [L_lit] at h; subst h; decide
  · intro h
    simp only [unbased, List.mem_cons, List.not_mem_nil, or_false] at h
    have hz : ∀ c, c ∈ ['x', 'X', 'z', 'Z'] → L (seq (set ['\'']) Z_OR_X) ['\'', c] := fun c hc => (L_char _).2 ⟨[c], rfl, L_set.2 ⟨c, rfl, hc⟩⟩
    rcases h with rfl | rfl | rfl | rfl | rfl | rfl
    exacts [⟨lit ['\'', '0'], by simp, L_lit.2 rfl⟩, ⟨lit ['\'', '1'], by simp, L_lit.2 rfl⟩, ⟨_, by simp, hz 'x' (by simp)⟩, ⟨_, by simp, hz 'X' (by simp)⟩,
      ⟨_, by simp, hz 'z' (by simp)⟩, ⟨_, by simp, hz 'Z' (by simp)⟩]

/-! ## Names -/

/-- Names of C. -/
def CIdent (w : Str) : Prop := ∃ c s, w = c :: s ∧ SvLex.identStart c = true ∧ s.all cChar = true
theorem L_cIdent (w : Str) : L C_IDENTIFIERr w ↔ CIdent w := by
  rw [C_IDENTIFIERr, L_cons cls_start]; simp only [L_star_cls cls_cChar]; rfl
theorem L_ident (w : Str) : L SIMPLE_IDENTIFIERr w ↔ Ident w := by
  rw [SIMPLE_IDENTIFIERr, L_cons cls_start]; simp only [L_star_cls cls_charD]; rfl
theorem cIdent_iff (w : Str) : CIdent w ↔ Ident w ∧ '$' ∉ w := by
  have h1 : ∀ c, cChar c = true → SvLex.identChar c = true := fun c h => by simp [cChar, SvLex.identChar] at h ⊢; tauto
  have h2 : ∀ c, cChar c = true → c ≠ '$' := by rintro c h rfl; revert h; decide
  have h3 : ∀ c, SvLex.identChar c = true → c ≠ '$' → cChar c = true := fun c h h' => by simp [cChar, SvLex.identChar, h'] at h ⊢; tauto
  have h4 : ∀ c, SvLex.identStart c = true → c ≠ '$' := by rintro c h rfl; revert h; decide
  constructor
  · rintro ⟨c, s, rfl, hc, hs⟩
    rw [List.all_eq_true] at hs
    refine ⟨⟨c, s, rfl, hc, List.all_eq_true.2 fun x hx => h1 x (hs x hx)⟩, ?_⟩
    rw [List.mem_cons, not_or]
    exact ⟨fun e => h4 c hc e.symm, fun hm => h2 _ (hs _ hm) rfl⟩
  · rintro ⟨⟨c, s, rfl, hc, hs⟩, hd⟩
    rw [List.all_eq_true] at hs
    rw [List.mem_cons, not_or] at hd
    exact ⟨c, s, rfl, hc, List.all_eq_true.2 fun x hx => h3 x (hs x hx) (by rintro rfl; exact hd.2 hx)⟩
theorem L_escaped (w : Str) : L ESCAPED_IDENTIFIERr w ↔ Escaped w := by
  simp only [ESCAPED_IDENTIFIERr, seqs]
  rw [L_char]
  constructor
  · rintro ⟨s, rfl, h⟩
    obtain ⟨n, ws, rfl, h1, h2⟩ := L_seq.1 h
    rw [L_white] at h2
    exact ⟨n, ws, rfl, (L_star_cls cls_printable n).1 h1, h2⟩
  · rintro ⟨n, ws, rfl, h1, h2⟩
    exact ⟨_, rfl, L_seq.2 ⟨n, ws, rfl, (L_star_cls cls_printable n).2 h1, (L_white ws).2 h2⟩⟩
theorem L_system (w : Str) : L SYSTEM_TF_IDENTIFIERr w ↔ System w := by
  rw [SYSTEM_TF_IDENTIFIERr, L_char]; simp only [L_plus_cls cls_charD]; rfl

/-! ## Strings -/

theorem L_strChar (w : Str) : L stringChar w ↔ (∃ c, w = [c] ∧ c ∉ ['"', '\\', '\r', '\n']) ∨ w = ['\\', '\r', '\n'] ∨
    (∃ c, w = ['\\', c] ∧ c ∈ knownEscapes) ∨ (∃ a b, w = ['\\', a, b] ∧ digit a = true ∧ digit b = true) ∨
    (∃ a b c, w = ['\\', a, b, c] ∧ digit a = true ∧ digit b = true ∧ digit c = true) ∨
    (∃ a, w = ['\\', 'x', a] ∧ hex a = true) ∨ (∃ a b, w = ['\\', 'x', a, b] ∧ hex a = true ∧ hex b = true) := by
  have hd : ∀ c, digit c = true → c ∈ knownEscapes := by
    intro c hc
    have key : ∀ c ∈ (List.range' 48 10).map Char.ofNat, c ∈ knownEscapes := by decide
    simp only [digit, Bool.and_eq_true, decide_eq_true_eq, Vhdl.char_le] at hc
    exact key c (Vhdl.mem_range (a := 48) (b := 57) hc.1 hc.2)
  have hk : ∀ c ∈ knownEscapes, c ∈ ['a', 'b', 'e', 'f', 'n', 'r', 't', 'v', '$', '@', 'l', 'u', 'L', 'E', 'Q', 'U', '\\', '"', '%'] ∨ c = '\n' ∨ digit c = true := by
    decide
  have ho : ∀ w, L (opt DECIMAL_DIGIT) w ↔ w = [] ∨ ∃ c, w = [c] ∧ digit c = true := by
    intro w; rw [L_opt, cls_digit w]; exact or_comm
  have hx : ∀ w, L (opt (alts [rng '0' '9', rng 'A' 'F', rng 'a' 'f'])) w ↔ w = [] ∨ ∃ c, w = [c] ∧ hex c = true := by
    intro w; rw [L_opt, cls_hex' w]; exact or_comm
  rw [stringChar, L_alts]
  constructor
  · rintro ⟨r, hr, h⟩
    simp only [List.mem_cons, List.not_mem_nil, or_false] at hr
    rcases hr with rfl | rfl | rfl | rfl | rfl | rfl
    · exact .inl (L_non.1 h)
    · rw [L_lit] at h; exact .inr (.inr (.inl ⟨'\n', h, by decide⟩))
    · rw [L_lit] at h; exact .inr (.inl h)
    · obtain ⟨s, rfl, h'⟩ := (L_char w).1 h
      obtain ⟨c, rfl, hc⟩ := L_set.1 h'
      refine .inr (.inr (.inl ⟨c, rfl, ?_⟩))
      simp only [knownEscapes, List.mem_cons, List.not_mem_nil, or_false] at hc ⊢; tauto
    · simp only [seqs] at h
      obtain ⟨s, rfl, h1⟩ := (L_char w).1 h
      obtain ⟨a, s, rfl, ha, h2⟩ := (L_cons cls_digit s).1 h1
      obtain ⟨u, v, rfl, hu, hv⟩ := L_seq.1 h2
      rcases (ho u).1 hu with rfl | ⟨b, rfl, hb⟩ <;> rcases (ho v).1 hv with rfl | ⟨c, rfl, hc⟩
      · exact .inr (.inr (.inl ⟨a, rfl, hd a ha⟩))
      · exact .inr (.inr (.inr (.inl ⟨a, c, rfl, ha, hc⟩)))
      · exact .inr (.inr (.inr (.inl ⟨a, b, rfl, ha, hb⟩)))
      · exact .inr (.inr (.inr (.inr (.inl ⟨a, b, c, rfl, ha, hb, hc⟩))))
    · simp only [seqs] at h
      obtain ⟨s, rfl, h1⟩ := (L_char w).1 h
      obtain ⟨s, rfl, h2⟩ := (L_char s).1 h1
      obtain ⟨a, s, rfl, ha, h3⟩ := (L_cons cls_hex' s).1 h2
      rcases (hx s).1 h3 with rfl | ⟨b, rfl, hb⟩
      · exact .inr (.inr (.inr (.inr (.inr (.inl ⟨a, rfl, ha⟩)))))
      · exact .inr (.inr (.inr (.inr (.inr (.inr ⟨a, b, rfl, ha, hb⟩)))))
  · have dig : ∀ (a : Char) (u v : Str), digit a = true → (u = [] ∨ ∃ c, u = [c] ∧ digit c = true) → (v = [] ∨ ∃ c, v = [c] ∧ digit c = true) →
        L (seqs [set ['\\'], DECIMAL_DIGIT, opt DECIMAL_DIGIT, opt DECIMAL_DIGIT]) ('\\' :: a :: (u ++ v)) := by
      intro a u v ha hu hv
      simp only [seqs]
      exact (L_char _).2 ⟨_, rfl, (L_cons cls_digit _).2 ⟨a, _, rfl, ha, L_seq.2 ⟨u, v, rfl, (ho u).2 hu, (ho v).2 hv⟩⟩⟩
    have hxx : ∀ (a : Char) (u : Str), hex a = true → (u = [] ∨ ∃ c, u = [c] ∧ hex c = true) →
        L (seqs [set ['\\'], set ['x'], alts [rng '0' '9', rng 'A' 'F', rng 'a' 'f'], opt (alts [rng '0' '9', rng 'A' 'F', rng 'a' 'f'])]) ('\\' :: 'x' :: a :: u) := by
      intro a u ha hu
      simp only [seqs]
      exact (L_char _).2 ⟨_, rfl, (L_char _).2 ⟨_, rfl, (L_cons cls_hex' _).2 ⟨a, u, rfl, ha, (hx u).2 hu⟩⟩⟩
    rintro (h | rfl | ⟨c, rfl, hc⟩ | ⟨a, b, rfl, ha, hb⟩ | ⟨a, b, c, rfl, ha, hb, hc⟩ | ⟨a, rfl, ha⟩ | ⟨a, b, rfl, ha, hb⟩)
    · exact ⟨_, by simp, L_non.2 h⟩
    · exact ⟨lit ['\\', '\r', '\n'], by simp, L_lit.2 rfl⟩
    · rcases hk c hc with h | rfl | h
      · exact ⟨seq (set ['\\']) (set ['a', 'b', 'e', 'f', 'n', 'r', 't', 'v', '$', '@', 'l', 'u', 'L', 'E', 'Q', 'U', '\\', '"', '%']), by simp,
          (L_char _).2 ⟨[c], rfl, L_set.2 ⟨c, rfl, h⟩⟩⟩
      · exact ⟨lit ['\\', '\n'], by simp, L_lit.2 rfl⟩
      · exact ⟨_, by simp, dig c [] [] h (.inl rfl) (.inl rfl)⟩
    · exact ⟨_, by simp, dig a [b] [] ha (.inr ⟨b, rfl, hb⟩) (.inl rfl)⟩
    · exact ⟨_, by simp, dig a [b] [c] ha (.inr ⟨b, rfl, hb⟩) (.inr ⟨c, rfl, hc⟩)⟩
    · exact ⟨_, by simp, hxx a [] ha (.inl rfl)⟩
    · exact ⟨_, by simp, hxx a [b] ha (.inr ⟨b, rfl, hb⟩)⟩

theorem strBody_ord {c : Char} {s : Str} (h : c ≠ '\\') : strBody (c :: s) = (!['"', '\\', '\r', '\n'].contains c && strBody s) := by
  rw [strBody]
  · intro s' e; exact absurd e h
  · intro c' s' e; exact absurd e h
theorem strBody_esc {c : Char} {s : Str} (h : c ≠ '\r') : strBody ('\\' :: c :: s) = strBody s := by
  rw [strBody]
  · simp [h]
  · intro s' e; exact absurd e h
theorem strBody_crlf {s : Str} : strBody ('\\' :: '\r' :: '\n' :: s) = strBody s := by rw [strBody]
theorem known_ord {c : Char} {s : Str} (h : c ≠ '\\') : known (c :: s) = known s := by
  rw [known]
  · simp [h]
  · intro s' e; exact absurd e h
  · intro c' s' e; exact absurd e h
  · intro c' s' e; exact absurd e h
theorem known_esc {c : Char} {s : Str} (h : c ≠ '\r') (hx : c ≠ 'x') : known ('\\' :: c :: s) = (knownEscapes.contains c && known s) := by
  rw [known]
  · intro s' e; exact absurd e h
  · intro c' s' e; exact absurd e hx
theorem known_x {c : Char} {s : Str} : known ('\\' :: 'x' :: c :: s) = (hex c && known s) := by rw [known]
theorem known_crlf {s : Str} : known ('\\' :: '\r' :: '\n' :: s) = known s := by rw [known]

theorem L_strBody (v : Str) : L (star stringChar) v ↔ strBody v = true ∧ known v = true := by
  have hdig : ∀ c, digit c = true → c ∉ ['"', '\\', '\r', '\n'] := by
    intro c h hm
    simp only [List.mem_cons, List.not_mem_nil, or_false] at hm
    rcases hm with rfl | rfl | rfl | rfl <;> revert h <;> decide
  have hhex : ∀ c, hex c = true → c ∉ ['"', '\\', '\r', '\n'] := by
    intro c h hm
    simp only [List.mem_cons, List.not_mem_nil, or_false] at hm
    rcases hm with rfl | rfl | rfl | rfl <;> revert h <;> decide
  have hk : ∀ c ∈ knownEscapes, c ≠ '\r' ∧ c ≠ 'x' := by decide
  have hdk : ∀ c, digit c = true → c ∈ knownEscapes := by
    intro c hc
    have key : ∀ c ∈ (List.range' 48 10).map Char.ofNat, c ∈ knownEscapes := by decide
    simp only [digit, Bool.and_eq_true, decide_eq_true_eq, Vhdl.char_le] at hc
    exact key c (Vhdl.mem_range (a := 48) (b := 57) hc.1 hc.2)
  have ord : ∀ {c : Char} {s : Str}, c ∉ ['"', '\\', '\r', '\n'] → strBody s = true ∧ known s = true → strBody (c :: s) = true ∧ known (c :: s) = true := by
    intro c s hc hs
    have h1 : c ≠ '\\' := by rintro rfl; simp at hc
    rw [strBody_ord h1, known_ord h1, hs.1, hs.2]
    simp only [and_true, Bool.and_true, Bool.not_eq_true']
    rw [← Bool.not_eq_true, List.contains_iff_mem]; exact hc
  have esc : ∀ {c : Char} {s : Str}, c ∈ knownEscapes → strBody s = true ∧ known s = true → strBody ('\\' :: c :: s) = true ∧ known ('\\' :: c :: s) = true := by
    intro c s hc hs
    rw [strBody_esc (hk c hc).1, known_esc (hk c hc).1 (hk c hc).2, hs.1, hs.2]
    simp [hc]
  have escx : ∀ {c : Char} {s : Str}, hex c = true → strBody s = true ∧ known s = true → strBody ('\\' :: 'x' :: c :: s) = true ∧ known ('\\' :: 'x' :: c :: s) = true := by
    intro c s hc hs
    have h1 := ord (hhex c hc) hs
    rw [strBody_esc (by decide), known_x, h1.1, hs.2, hc]; simp
  constructor
  · refine L_star_ind (P := fun v => strBody v = true ∧ known v = true) ⟨rfl, rfl⟩ ?_
    intro u v hu _ hv
    rcases (L_strChar u).1 hu with ⟨c, rfl, hc⟩ | rfl | ⟨c, rfl, hc⟩ | ⟨a, b, rfl, ha, hb⟩ | ⟨a, b, c, rfl, ha, hb, hc⟩ | ⟨a, rfl, ha⟩ | ⟨a, b, rfl, ha, hb⟩
    · exact ord hc hv
    · exact ⟨strBody_crlf.trans hv.1, known_crlf.trans hv.2⟩
    · exact esc hc hv
    · exact esc (hdk a ha) (ord (hdig b hb) hv)
    · exact esc (hdk a ha) (ord (hdig b hb) (ord (hdig c hc) hv))
    · exact escx ha hv
    · exact escx ha (ord (hhex b hb) hv)
  · rintro ⟨h1, h2⟩
    have gen : ∀ n (v : Str), v.length ≤ n → strBody v = true → known v = true → L (star stringChar) v := by
      intro n
      induction n with
      | zero => intro v hl _ _; cases v with
        | nil => exact L_star_nil
        | cons c v => simp at hl
      | succ n ih =>
        intro v hl h1 h2
        cases v with
        | nil => exact L_star_nil
        | cons c v =>
          simp only [List.length_cons] at hl
          by_cases hc : c = '\\'
          · subst hc
            cases v with
            | nil => cases h2
            | cons d v =>
              simp only [List.length_cons] at hl
              by_cases hr : d = '\r'
              · subst hr
                cases v with
                | nil => cases h2
                | cons e v =>
                  simp only [List.length_cons] at hl
                  by_cases hn : e = '\n'
                  · subst hn
                    rw [strBody_crlf] at h1; rw [known_crlf] at h2
                    exact L_star_cons (u := ['\\', '\r', '\n']) ((L_strChar _).2 (.inr (.inl rfl))) (ih v (by omega) h1 h2)
                  · rw [known] at h2
                    · simp [knownEscapes] at h2
                    · simp [hn]
                    · simp
              · rw [strBody_esc hr] at h1
                by_cases hx : d = 'x'
                · subst hx
                  cases v with
                  | nil => exact absurd h2 (by decide)
                  | cons e v =>
                    simp only [List.length_cons] at hl
                    rw [known_x, Bool.and_eq_true] at h2
                    have he := hhex e h2.1
                    have he1 : e ≠ '\\' := by rintro rfl; simp at he
                    rw [strBody_ord he1, Bool.and_eq_true] at h1
                    exact L_star_cons (u := ['\\', 'x', e]) ((L_strChar _).2 (.inr (.inr (.inr (.inr (.inr (.inl ⟨e, rfl, h2.1⟩)))))))
                      (ih v (by omega) h1.2 h2.2)
                · rw [known_esc hr hx, Bool.and_eq_true] at h2
                  exact L_star_cons (u := ['\\', d]) ((L_strChar _).2 (.inr (.inr (.inl ⟨d, rfl, by simpa using h2.1⟩)))) (ih v (by omega) h1 h2.2)
          · rw [strBody_ord hc, Bool.and_eq_true] at h1
            rw [known_ord hc] at h2
            refine L_star_cons (u := [c]) ((L_strChar _).2 (.inl ⟨c, rfl, ?_⟩)) (ih v (by omega) h1.2 h2)
            have := h1.1
            rw [Bool.not_eq_true', ← Bool.not_eq_true, List.contains_iff_mem] at this
            exact this
    exact gen _ v (Nat.le_refl _) h1 h2

theorem L_string (w : Str) : L STRING_LITERALr w ↔ ∃ v, w = '"' :: v ++ ['"'] ∧ strBody v = true ∧ known v = true := by
  simp only [STRING_LITERALr, seqs]
  rw [L_char]
  constructor
  · rintro ⟨s, rfl, h⟩
    obtain ⟨v, q, rfl, h1, h2⟩ := L_seq.1 h
    obtain ⟨c, rfl, hc⟩ := L_set.1 h2
    simp at hc; subst hc
    exact ⟨v, rfl, (L_strBody v).1 h1⟩
  · rintro ⟨v, rfl, h⟩
    exact ⟨v ++ ['"'], rfl, L_seq.2 ⟨v, ['"'], rfl, (L_strBody v).2 h, L_set.2 ⟨'"', rfl, by simp⟩⟩⟩

/-! ## The rest -/

theorem L_descriptor (w : Str) : L EDGE_DESCRIPTOR w ↔ EdgeDescriptor w := by
  rw [EDGE_DESCRIPTOR, L_alts]
  constructor
  · rintro ⟨r, hr, h⟩
    simp only [List.mem_cons, List.not_mem_nil, or_false] at hr
    rcases hr with rfl | rfl | rfl | rfl
    · obtain ⟨a, s, rfl, ha, h'⟩ := (L_cons (cls_set _) w).1 h
      obtain ⟨b, rfl, hb⟩ := L_set.1 h'
      exact ⟨a, b, rfl, .inl ⟨by simpa using ha, hb⟩⟩
    · obtain ⟨a, s, rfl, ha, h'⟩ := (L_cons (cls_set _) w).1 h
      obtain ⟨b, rfl, hb⟩ := L_set.1 h'
      exact ⟨a, b, rfl, .inr (.inl ⟨by simpa using ha, hb⟩)⟩
    · rw [L_lit] at h; exact ⟨'0', '1', h, by simp⟩
    · rw [L_lit] at h; exact ⟨'1', '0', h, by simp⟩
  · rintro ⟨a, b, rfl, ⟨ha, hb⟩ | ⟨ha, hb⟩ | ⟨rfl, rfl⟩ | ⟨rfl, rfl⟩⟩
    · exact ⟨_, by simp, (L_cons (r := Z_OR_X) (a := ZERO_OR_ONE) (cls_set _) _).2 ⟨a, [b], rfl, by simpa using ha, L_set.2 ⟨b, rfl, hb⟩⟩⟩
    · exact ⟨seq ZERO_OR_ONE Z_OR_X, by simp, (L_cons (r := ZERO_OR_ONE) (a := Z_OR_X) (cls_set _) _).2 ⟨a, [b], rfl, by simpa using ha, L_set.2 ⟨b, rfl, hb⟩⟩⟩
    · exact ⟨lit ['0', '1'], by simp, L_lit.2 rfl⟩
    · exact ⟨lit ['1', '0'], by simp, L_lit.2 rfl⟩

theorem L_edge {w : Str} (h : L EDGE_CONTROL_SPECIFIERr w) : EdgeControl w := by
  simp only [EDGE_CONTROL_SPECIFIERr, seqs] at h
  obtain ⟨a, s, rfl, h1, h2⟩ := L_seq.1 h
  rw [L_lit] at h1; subst h1
  obtain ⟨s, rfl, h3⟩ := (L_char s).1 h2
  obtain ⟨d, s, rfl, hd, h4⟩ := L_seq.1 h3
  obtain ⟨x, s, rfl, hx, h5⟩ := L_seq.1 h4
  obtain ⟨c, rfl, hc⟩ := L_set.1 h5
  simp at hc; subst hc
  obtain ⟨ws, rfl, hws⟩ := L_star.1 hx
  have : ∃ ds : List Str, ws = ds.map (fun x => ',' :: x) ∧ ∀ x ∈ ds, EdgeDescriptor x := by
    clear hx h h2 h3 h4 h5
    induction ws with
    | nil => exact ⟨[], rfl, by simp⟩
    | cons y ws ih =>
      obtain ⟨ds, rfl, hds⟩ := ih fun x hx => hws x (by simp [hx])
      obtain ⟨e, rfl, he⟩ := (L_char y).1 (hws y (by simp))
      refine ⟨e :: ds, rfl, ?_⟩
      intro x hx
      rcases List.mem_cons.1 hx with rfl | hx
      · exact (L_descriptor _).1 he
      · exact hds x hx
  obtain ⟨ds, rfl, hds⟩ := this
  exact ⟨d, ds, rfl, (L_descriptor d).1 hd, hds⟩

theorem block_eq : BLOCK_COMMENTr = Vhdl.BLOCK_COMMENTr := rfl

end Verif.Sv
