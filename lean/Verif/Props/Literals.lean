import Verif.LiteralLemmas
import Verif.StrUtilsLemmas
/-!
# Properties of literals (C29 - C34, C60)
-/
namespace Verif
open Spec

theorem canon_append (a b : Str) : canon (a ++ b) = canon a ++ canon b := by simp [canon]

theorem canon_ws {s : Str} (h : IsWs s) : canon s = s := by
  unfold canon
  rw [List.filter_eq_self.2]
  · conv_rhs => rw [← List.map_id s]
    apply List.map_congr_left
    intro c hc
    rcases h c hc with rfl | rfl | rfl | rfl | rfl <;> rfl
  · intro c hc
    rcases h c hc with rfl | rfl | rfl | rfl | rfl <;> rfl

theorem charAt_one (a b : Char) (r : Str) : charAt (a :: b :: r) 1 = some b := by
  simp [charAt]

theorem charAt_two (a b c : Char) (r : Str) : charAt (a :: b :: c :: r) 2 = some c := by
  simp [charAt]

/-- What `visitANY_BASED_NUMBER` returns for a literal without white space in front of the base letter. -/
theorem svAnyBased_ok (l : VLit) (h : l.Ok) (h1 : l.ws1 = []) (h2 : l.ws2 = []) (size : Option Int) :
    svAnyBased l.text size = .ok ⟨size.getD (-1), ⟨0, l.ws3 ++ canon l.digits, l.base.radix⟩⟩ := by
  obtain ⟨ws1, sign, ws2, base, letter, ws3, digits⟩ := l
  simp only at h1 h2
  subst h1 h2
  obtain ⟨⟨-, -, hw⟩, hs, hl, -⟩ := h
  unfold svAnyBased VLit.text
  simp only at hw hs hl ⊢
  rw [lowerS_eraseChar]
  have hcan : canon (ws3 ++ digits) = ws3 ++ canon digits := by rw [canon_append, canon_ws hw]
  rcases hs with rfl | rfl | rfl <;> cases base <;> simp only [VBase.letters, List.mem_cons, List.not_mem_nil, or_false] at hl <;>
    rcases hl with rfl | rfl <;> cases size <;>
    simp [canon, Spec.lower, VBase.radix, charAt, substr, IntVal.ofStrBits, IntVal.ofStr, BigInt.ofStr] <;>
    (simpa [canon] using hcan)

/-- `VLit.Ok` holds for `'sh 0F_x`, `'b1_0`. -/
example : VLit.Ok ⟨[], some 's', [], .hex, 'h', [' '], c! "0F_x"⟩ := by
  refine ⟨by decide, by decide, by decide, by decide, by decide, ?_⟩
  intro c hc
  simp only [List.mem_cons, List.not_mem_nil, or_false] at hc
  rcases hc with rfl | rfl | rfl | rfl
  · right; exact .inr (.inr (.inr (.inr (.inr ⟨0, by decide⟩))))
  · right; exact .inr (.inr (.inr (.inr (.inr ⟨15, by decide⟩))))
  · left; rfl
  · right; left; rfl

/-! ## C29: Verilog numbers -/

/-- The first `'` of a sized literal is the one behind the size. -/
theorem find_quote {sz : Str} (h : IsUnsignedNumber sz) (r : Str) : find (sz ++ '\'' :: r) ['\''] 0 = some sz.length := by
  rw [find_some]
  refine ⟨by omega, by simp, ?_, ?_⟩
  · rw [prefix_singleton_drop]; simp
  · intro j _ hj hp
    rw [prefix_singleton_drop, List.getElem?_append_left hj] at hp
    have := h.2 '\'' (List.mem_of_getElem? hp)
    revert this; decide

/-- C29 (unsized, unbased): the digits are returned without underscores, in base 10, with unknown width, and they have the value of
the source text. -/
theorem C29_unsigned (t : Str) (h : IsUnsignedNumber t) :
    ∃ v, svIntegral (.unsigned t) = .ok v ∧ v.int.base = 10 ∧ v.int.bitstring = canon t ∧ v.bits = -1 ∧
      '_' ∉ v.int.bitstring ∧ numVal 10 v.int.bitstring = numVal 10 t ∧ ∃ n, numVal 10 t = some n := by
  have hc : eraseChar '_' t = canon t := by
    unfold canon eraseChar
    conv_lhs => rw [← List.map_id (List.filter (fun x => decide (x ≠ '_')) t)]
    apply List.map_congr_left
    intro c hc
    simp only [List.mem_filter, decide_eq_true_eq] at hc
    rcases h.2 c hc.1 with h1 | h1
    · exact absurd h1 hc.2
    · rw [lower_of_not (by omega)]; rfl
  refine ⟨_, rfl, rfl, hc, rfl, ?_, ?_, ?_⟩
  · simp [svUnsigned, IntVal.ofStr, BigInt.ofStr, eraseChar]
  · show numVal 10 (eraseChar '_' t) = _
    rw [hc, numVal_canon]
  · obtain ⟨n, hn, -⟩ := strtol_unsigned h; exact ⟨n, hn⟩

example : IsUnsignedNumber (c! "12_000_") ∧ numVal 10 (c! "12_000_") = some 12000 := by decide

/-- C29 (partial): a based literal is returned with its base, the width written in front of it (or unknown), its digits without
underscores in lower case (behind the white space between base letter and digits), and these digits have the value of the source
digits. Missing: literals with white space in front of the base letter (`C29_violated_ws`), the sign letter
(`C29_violated_signed`), sizes of 2^31 and more (`C29_violated_size`). -/
theorem C29_based_partial (l : VLit) (h : l.Ok) (h1 : l.ws1 = []) (h2 : l.ws2 = []) (sz : Str) (hsz : IsUnsignedNumber sz)
    (n : Nat) (hn : numVal 10 sz = some n) (hb : n < 2147483648) :
    (∃ v, svIntegral (.basedWithSize (sz ++ l.text)) = .ok v ∧ svIntegral (.anyBased (some sz) l.text) = .ok v ∧
      v.bits = n ∧ v.int.base = l.base.radix ∧ v.int.bitstring = l.ws3 ++ canon l.digits) ∧
    (∃ v, svIntegral (.anyBased none l.text) = .ok v ∧
      v.bits = -1 ∧ v.int.base = l.base.radix ∧ v.int.bitstring = l.ws3 ++ canon l.digits) ∧
    numVal l.base.radix (canon l.digits) = numVal l.base.radix l.digits := by
  refine ⟨⟨⟨n, ⟨0, l.ws3 ++ canon l.digits, l.base.radix⟩⟩, ?_, ?_, rfl, rfl, rfl⟩, ⟨_, svAnyBased_ok l h h1 h2 none, rfl, rfl, rfl⟩, numVal_canon _ _⟩
  · have hf := find_quote hsz (l.ws1 ++ l.sign.toList ++ l.ws2 ++ l.letter :: (l.ws3 ++ l.digits))
    show (match find (sz ++ l.text) ['\''] 0 with
      | none => Except.error Exc.outOfRange
      | some f => do
        let size ← svParseSize ((sz ++ l.text).take f)
        svAnyBased ((sz ++ l.text).drop f) (some size)) = _
    rw [show find (sz ++ l.text) ['\''] 0 = some sz.length from hf]
    simp only [List.take_left, List.drop_left, svParseSize_ok hsz hn hb]
    exact svAnyBased_ok l h h1 h2 (some (n : Int))
  · show (do
      let size ← svParseSize sz
      svAnyBased l.text (some size)) = _
    rw [svParseSize_ok hsz hn hb]
    exact svAnyBased_ok l h h1 h2 (some (n : Int))

example : svIntegral (.basedWithSize (c! "1_6'shDE_AD")) = .ok ⟨16, ⟨0, c! "dead", 16⟩⟩ := by decide

/-- White space characters are not letters the converter looks for. -/
theorem ws_char {c : Char} (h : c = ' ' ∨ c = '\t' ∨ c = '\n' ∨ c = '\r' ∨ c = '\x0c') :
    c ≠ 's' ∧ c ≠ '_' ∧ Spec.lower c = c ∧ ¬ (c = 'b' ∨ c = 'B') ∧ ¬ (c = 'o' ∨ c = 'O') ∧ ¬ (c = 'd' ∨ c = 'D') ∧
      ¬ (c = 'h' ∨ c = 'H') := by
  rcases h with rfl | rfl | rfl | rfl | rfl <;> decide

theorem svAnyBased_ws1 {s r : Str} {c : Char} (hs : canon s = '\'' :: c :: r)
    (h : c = ' ' ∨ c = '\t' ∨ c = '\n' ∨ c = '\r' ∨ c = '\x0c') (size : Option Int) :
    ∃ m, svAnyBased s size = .error (.runtime m) := by
  obtain ⟨h1, -, -, h4, h5, h6, h7⟩ := ws_char h
  unfold svAnyBased
  rw [lowerS_eraseChar, hs]
  refine ⟨c! "Unknown number base:" ++ [c], ?_⟩
  simp [charAt, h1, not_or.1 h4, not_or.1 h5, not_or.1 h6, not_or.1 h7]

theorem svAnyBased_ws2 {s r : Str} {c : Char} (hs : canon s = '\'' :: 's' :: c :: r)
    (h : c = ' ' ∨ c = '\t' ∨ c = '\n' ∨ c = '\r' ∨ c = '\x0c') (size : Option Int) :
    ∃ m, svAnyBased s size = .error (.runtime m) := by
  obtain ⟨h1, -, -, h4, h5, h6, h7⟩ := ws_char h
  unfold svAnyBased
  rw [lowerS_eraseChar, hs]
  refine ⟨c! "Unknown number base:" ++ [c], ?_⟩
  simp [charAt, not_or.1 h4, not_or.1 h5, not_or.1 h6, not_or.1 h7]

/-- C29 (violated): with white space in front of the base letter or between the sign letter and the base letter (both are legal and
accepted by the lexer) the conversion fails. -/
theorem C29_violated_ws (l : VLit) (h : l.Ok) (hw : l.ws1 ≠ [] ∨ l.ws2 ≠ []) (size : Option Int) :
    ∃ m, svAnyBased l.text size = .error (.runtime m) := by
  obtain ⟨ws1, sign, ws2, base, letter, ws3, digits⟩ := l
  obtain ⟨⟨hw1, hw2, -⟩, hs, -, -⟩ := h
  simp only at hw hw1 hw2 hs
  have first : ∀ (c : Char) (r : Str), (c = ' ' ∨ c = '\t' ∨ c = '\n' ∨ c = '\r' ∨ c = '\x0c') →
      canon ('\'' :: c :: r) = '\'' :: c :: canon r := by
    intro c r hc
    obtain ⟨-, h2, h3, -⟩ := ws_char hc
    simp [canon, h2, Spec.lower] at h3 ⊢
    exact h3
  cases ws1 with
  | cons c r => exact svAnyBased_ws1 (first c _ (hw1 c (by simp))) (hw1 c (by simp)) size
  | nil =>
    cases ws2 with
    | nil => simp at hw
    | cons c r =>
      have hc := hw2 c (by simp)
      have hsx : ∀ x : Char, x = 's' ∨ x = 'S' → ∀ r : Str, canon ('\'' :: x :: c :: r) = '\'' :: 's' :: c :: canon r := by
        obtain ⟨-, h2, h3, -⟩ := ws_char hc
        rintro x (rfl | rfl) r <;> simp [canon, h2, Spec.lower] at h3 ⊢ <;> exact h3
      rcases hs with rfl | rfl | rfl
      · exact svAnyBased_ws1 (first c _ hc) hc size
      · exact svAnyBased_ws2 (hsx 's' (.inl rfl) _) hc size
      · exact svAnyBased_ws2 (hsx 'S' (.inr rfl) _) hc size

/-- `8' hFF` and `8's hFF`. -/
example : svIntegral (.basedWithSize (c! "8' hFF")) = .error (.runtime (c! "Unknown number base: ")) ∧
    svIntegral (.basedWithSize (c! "8's hFF")) = .error (.runtime (c! "Unknown number base: ")) := by decide

/-- C29 (violated): the sign letter is lost. `4'sb1111` (value -1) and `4'b1111` (value 15) give the same object, so no reader of
the AST can recover the value of sized literals. -/
theorem C29_violated_signed :
    ¬ ∃ f : IntVal → Option Int, ∀ (l : VLit) (sz : Str) (n : Nat) (v : IntVal), l.Ok → IsUnsignedNumber sz → numVal 10 sz = some n →
      svIntegral (.basedWithSize (sz ++ l.text)) = .ok v → f v = l.value n := by
  rintro ⟨f, hf⟩
  have hd : ∀ c ∈ c! "1111", c = '_' ∨ VBase.bin.isDigit c := by
    intro c hc
    simp only [List.mem_cons, List.not_mem_nil, or_false, or_self] at hc
    subst hc
    right; exact .inr (.inr (.inr (.inr (.inr ⟨1, by decide⟩))))
  have a := hf ⟨[], some 's', [], .bin, 'b', [], c! "1111"⟩ (c! "4") 4 ⟨4, ⟨0, c! "1111", 2⟩⟩
    ⟨by decide, by decide, by decide, by decide, by decide, hd⟩ (by decide) (by decide) (by decide)
  have b := hf ⟨[], none, [], .bin, 'b', [], c! "1111"⟩ (c! "4") 4 ⟨4, ⟨0, c! "1111", 2⟩⟩
    ⟨by decide, by decide, by decide, by decide, by decide, hd⟩ (by decide) (by decide) (by decide)
  rw [a] at b
  revert b; decide

/-- C29 (violated): a size of 2^31 or more is undefined behaviour (`atoi`). -/
theorem C29_violated_size (l : VLit) (sz : Str) (hsz : IsUnsignedNumber sz) (n : Nat) (hn : numVal 10 sz = some n)
    (hb : 2147483648 ≤ n) : svIntegral (.anyBased (some sz) l.text) = .error .ub := by
  show (do
      let size ← svParseSize sz
      svAnyBased l.text (some size)) = _
  rw [svParseSize_ub hsz hn (by omega)]
  rfl

example : svIntegral (.anyBased (some (c! "3_000_000_000")) (c! "'d1")) = .error .ub := by decide

/-- C29 (violated): the unsized literal `'1` (all bits one) is returned as the same object as the number `1`. -/
theorem C29_violated_unbased : svUnbased (c! "'1") = svIntegral (.unsigned (c! "1")) := by decide

/-! ## C30: VHDL bit strings -/

theorem lower_ne_nul {c : Char} (h : c ≠ '\x00') : Spec.lower c ≠ '\x00' := lower_ne (by decide) h

theorem canon_nul {s : Str} (h : '\x00' ∉ s) : (canon s ++ ['\x00']).takeWhile (· ≠ '\x00') = canon s := by
  rw [List.takeWhile_append_of_pos]
  · simp
  · intro c hc
    simp only [canon, List.mem_map, List.mem_filter] at hc
    obtain ⟨d, ⟨hd, -⟩, rfl⟩ := hc
    have : d ≠ '\x00' := by rintro rfl; exact h hd
    simpa using lower_ne_nul this

/-- Does the converter read a size in front of the base letter (prefix `p0`)? -/
def readsSize (p0 : Str) : Bool :=
  (p0.length > 0 && (p0.map Spec.lower)[p0.length - 1]? ≠ some 'u') ||
  (p0.length > 1 && (p0.map Spec.lower)[p0.length - 1]? = some 'u')

/-- The general behaviour of `visitBIT_STRING_LITERAL` if there is no underscore in front of the quotes. -/
theorem vhdlBitString_eq (p0 : Str) (rc : Char) (digits : Str) (hq : '"' ∉ p0) (hrq : rc ≠ '"') (hu : '_' ∉ p0) (hru : rc ≠ '_')
    (hn : '\x00' ∉ digits) :
    vhdlBitString (p0 ++ rc :: '"' :: (digits ++ ['"'])) =
      match (if readsSize p0 then stoi ((p0 ++ rc :: '"' :: (digits ++ ['"'])).map Spec.lower) else .ok 0) with
      | .error e => .error e
      | .ok bits => .ok ⟨if bits = 0 then toInt32 ((canon digits).length * (vhdlRadix (Spec.lower rc)).2) else bits,
          ⟨0, canon digits, (vhdlRadix (Spec.lower rc)).1⟩⟩ := by
  have hf : find (p0 ++ rc :: '"' :: (digits ++ ['"'])) ['"'] 0 = some (p0.length + 1) := by
    rw [find_some]
    refine ⟨by omega, by simp, ?_, ?_⟩
    · rw [prefix_singleton_drop]; simp
    · intro j _ hj hp
      rw [prefix_singleton_drop] at hp
      rcases Nat.lt_succ_iff_lt_or_eq.1 hj with h | rfl
      · rw [List.getElem?_append_left h] at hp
        exact hq (List.mem_of_getElem? hp)
      · simp at hp; exact hrq hp
  have hlow : lowerC = Spec.lower := funext lowerC_eq
  unfold vhdlBitString
  rw [hf]
  simp only [lowerS, hlow]
  have e1 : (List.map Spec.lower (p0 ++ rc :: '"' :: (digits ++ ['"'])))[p0.length]? = some (Spec.lower rc) := by simp
  rw [e1]
  simp only
  have e2 : (decide (p0.length > 0) &&
      decide ((List.map Spec.lower (p0 ++ rc :: '"' :: (digits ++ ['"'])))[p0.length - 1]? ≠ some 'u') ||
      decide (p0.length > 1) &&
      decide ((List.map Spec.lower (p0 ++ rc :: '"' :: (digits ++ ['"'])))[p0.length - 1]? = some 'u')) = readsSize p0 := by
    unfold readsSize
    cases p0 with
    | nil => rfl
    | cons a r =>
      have : (List.map Spec.lower (a :: r ++ rc :: '"' :: (digits ++ ['"'])))[(a :: r).length - 1]? =
          ((a :: r).map Spec.lower)[(a :: r).length - 1]? := by
        rw [List.map_append, List.getElem?_append_left (by simp)]
      rw [this]
  rw [e2]
  have e3 : eraseChar '_' ((List.map Spec.lower (p0 ++ rc :: '"' :: (digits ++ ['"']))).set
      ((List.map Spec.lower (p0 ++ rc :: '"' :: (digits ++ ['"']))).length - 1) '\x00') =
      (p0.map Spec.lower ++ [Spec.lower rc, '"']) ++ (canon digits ++ ['\x00']) := by
    have hs : (List.map Spec.lower (p0 ++ rc :: '"' :: (digits ++ ['"']))) =
        (p0.map Spec.lower ++ [Spec.lower rc, '"'] ++ digits.map Spec.lower) ++ ['"'] := by
      have : Spec.lower '"' = '"' := by decide
      simp [this]
    rw [hs]
    generalize hX : p0.map Spec.lower ++ [Spec.lower rc, '"'] ++ digits.map Spec.lower = X
    have : (X ++ ['"']).set ((X ++ ['"']).length - 1) '\x00' = X ++ ['\x00'] := by
      rw [List.set_append_right _ _ (by simp)]; simp
    rw [this, ← hX]
    unfold eraseChar
    simp only [List.filter_append]
    have h1 : (p0.map Spec.lower).filter (fun x => decide (x ≠ '_')) = p0.map Spec.lower := by
      rw [List.filter_eq_self]
      intro c hc
      obtain ⟨d, hd, rfl⟩ := List.mem_map.1 hc
      have : d ≠ '_' := by rintro rfl; exact hu hd
      simpa using lower_ne (d := '_') (by decide) this
    have h2 : [Spec.lower rc, '"'].filter (fun x => decide (x ≠ '_')) = [Spec.lower rc, '"'] := by
      have := lower_ne (d := '_') (by decide) hru
      simp [this]
    have h3 : (digits.map Spec.lower).filter (fun x => decide (x ≠ '_')) = canon digits := by
      unfold canon
      rw [List.filter_map]
      congr 1
      apply List.filter_congr
      intro c _
      simp only [Function.comp, ne_eq, decide_not, Bool.not_eq_eq_eq_not, Bool.not_not, decide_eq_decide]
      constructor
      · intro h; by_contra hc; exact lower_ne (d := '_') (by decide) hc h
      · rintro rfl; decide
    rw [h1, h2, h3]
    simp
  cases (if readsSize p0 = true then stoi (List.map Spec.lower (p0 ++ rc :: '"' :: (digits ++ ['"']))) else Except.ok 0) with
  | error e => rfl
  | ok bits =>
    simp only
    rw [e3]
    have e4 : cstrFrom ((p0.map Spec.lower ++ [Spec.lower rc, '"']) ++ (canon digits ++ ['\x00'])) (p0.length + 2) =
        some (canon digits) := by
      unfold cstrFrom
      rw [if_pos (by simp)]
      rw [List.drop_left' (by simp)]
      rw [canon_nul hn]
    rw [e4]
    rfl

theorem digit_lower {s : Str} (h : ∀ d ∈ s, 48 ≤ d.toNat ∧ d.toNat ≤ 57) : s.map Spec.lower = s := by
  conv_rhs => rw [← List.map_id s]
  apply List.map_congr_left
  intro c hc
  rw [lower_of_not (by have := h c hc; omega)]; rfl

theorem HLit.letter_facts {l : HLit} (h : l.Ok) :
    l.letter ≠ '"' ∧ l.letter ≠ '_' ∧ isDigitC (Spec.lower l.letter) = false ∧
      vhdlRadix (Spec.lower l.letter) = (match l.base with | .bin => (2, 1) | .oct => (8, 2) | .hex => (16, 4) | .dec => (16, 4)) := by
  obtain ⟨size, sign, base, letter, digits⟩ := l
  have hl := h.letter
  cases base <;> simp only [HBase.letters, List.mem_cons, List.not_mem_nil, or_false] at hl <;> rcases hl with rfl | rfl <;>
    (refine ⟨?_, ?_, rfl, rfl⟩ <;> simp)

theorem toInt32_small {n : Nat} (h : n < 2147483648) : toInt32 n = n := by
  unfold toInt32
  rw [BitVec.toInt_eq_toNat_cond]
  simp only [BitVec.toNat_ofNat]
  omega

/-- The text in front of the base letter. -/
def HLit.pre (l : HLit) : Str := l.size.getD [] ++ l.sign.toList

theorem HLit.text_eq (l : HLit) : l.text = HLit.pre l ++ l.letter :: '"' :: (l.digits ++ ['"']) := rfl

theorem HLit.pre_facts {l : HLit} (h : l.Ok) : '"' ∉ HLit.pre l := by
  unfold HLit.pre
  rw [List.mem_append]
  rintro (hm | hm)
  · cases hs : l.size with
    | none => rw [hs] at hm; simp at hm
    | some s =>
      rw [hs] at hm
      rcases (h.size s hs).2 _ hm with h1 | h1
      · simp at h1
      · simp at h1
  · rcases h.sign with h1 | ⟨-, c, hc, h1⟩
    · rw [h1] at hm; simp at hm
    · rw [h1] at hm
      simp only [Option.toList_some, List.mem_singleton] at hm
      subst hm; simp at hc

theorem HLit.pre_us {l : HLit} (h : l.Ok) (hu : ∀ s, l.size = some s → '_' ∉ s) : '_' ∉ HLit.pre l := by
  unfold HLit.pre
  rw [List.mem_append]
  rintro (hm | hm)
  · cases hs : l.size with
    | none => rw [hs] at hm; simp at hm
    | some s =>
      rw [hs] at hm
      exact hu s hs hm
  · rcases h.sign with h1 | ⟨-, c, hc, h1⟩
    · rw [h1] at hm; simp at hm
    · rw [h1] at hm
      simp only [Option.toList_some, List.mem_singleton] at hm
      subst hm; simp at hc

theorem HLit.digits_nul {l : HLit} (h : l.Ok) : '\x00' ∉ l.digits := fun hm => (h.digits _ hm).2 rfl

theorem size_digits {s : Str} (h : IsUnsignedNumber s) (hu : '_' ∉ s) :
    ∃ c ds, s = c :: ds ∧ (48 ≤ c.toNat ∧ c.toNat ≤ 57) ∧ ∀ d ∈ ds, 48 ≤ d.toNat ∧ d.toNat ≤ 57 := by
  obtain ⟨c, ds, he, hc, hd⟩ := eraseChar_unsigned h
  refine ⟨c, ds, ?_, hc, hd⟩
  rw [← he]
  unfold eraseChar
  rw [List.filter_eq_self.2]
  intro x hx
  have : x ≠ '_' := by rintro rfl; exact hu hx
  simpa using this

/-- A size is read iff there is one, or there is an `s` without a size. -/
theorem readsSize_none {l : HLit} (h : l.Ok) (hs : l.size = none) (h2 : l.sign ≠ some 's' ∧ l.sign ≠ some 'S') :
    readsSize (HLit.pre l) = false := by
  unfold HLit.pre
  rw [hs]
  rcases h.sign with h1 | ⟨-, c, hc, h1⟩
  · rw [h1]; rfl
  · rw [h1] at h2 ⊢
    simp only [List.mem_cons, List.not_mem_nil, or_false] at hc
    rcases hc with rfl | rfl | rfl | rfl
    · rfl
    · rfl
    · simp at h2
    · simp at h2

theorem readsSize_some {l : HLit} (h : l.Ok) {s : Str} (hs : l.size = some s) (hu : '_' ∉ s) : readsSize (HLit.pre l) = true := by
  obtain ⟨c, ds, rfl, hc, hds⟩ := size_digits (h.size s hs) hu
  unfold HLit.pre
  rw [hs]
  rcases h.sign with h1 | ⟨-, e, he, h1⟩
  · rw [h1]
    have hall : ∀ d ∈ c :: ds, 48 ≤ d.toNat ∧ d.toNat ≤ 57 := by
      intro d hd; rcases List.mem_cons.1 hd with rfl | hd
      · exact hc
      · exact hds d hd
    unfold readsSize
    simp only [Option.getD_some, Option.toList_none, List.append_nil]
    rw [digit_lower hall]
    have : (c :: ds)[(c :: ds).length - 1]? ≠ some 'u' := by
      intro hx
      have := hall _ (List.mem_of_getElem? hx)
      simp at this
    rw [Bool.or_eq_true]
    left
    rw [Bool.and_eq_true]
    exact ⟨by simp, by simpa only [decide_eq_true_eq] using this⟩
  · rw [h1]
    unfold readsSize
    simp only [Option.getD_some, Option.toList_some]
    simp only [List.mem_cons, List.not_mem_nil, or_false] at he
    rcases he with rfl | rfl | rfl | rfl <;> simp [Spec.lower]

/-- `stoi` of the literal reads the size. -/
theorem stoi_size {l : HLit} (h : l.Ok) {s : Str} (hs : l.size = some s) (hu : '_' ∉ s) {n : Nat} (hn : numVal 10 s = some n) :
    stoi (l.text.map Spec.lower) = if n < 2147483648 then .ok (n : Int) else .error .outOfRange := by
  obtain ⟨c, ds, rfl, hc, hds⟩ := size_digits (h.size s hs) hu
  have hall : ∀ d ∈ c :: ds, 48 ≤ d.toNat ∧ d.toNat ≤ 57 := by
    intro d hd; rcases List.mem_cons.1 hd with rfl | hd
    · exact hc
    · exact hds d hd
  rw [numVal, numValAcc_digits _ _ hall, Option.some.injEq] at hn
  have ht : l.text.map Spec.lower = c :: ds ++ (l.sign.toList ++ l.letter :: '"' :: (l.digits ++ ['"'])).map Spec.lower := by
    conv_rhs => rw [← digit_lower hall]
    rw [← List.map_append]
    unfold HLit.text
    rw [hs]; simp
  have hst : strtol (l.text.map Spec.lower) = some (n : Int) := by
    rw [ht, strtol_digits hc hds, hn]
    intro d hd
    rcases h.sign with h1 | ⟨-, e, he, h1⟩
    · rw [h1] at hd
      simp at hd
      subst hd
      exact (HLit.letter_facts h).2.2.1
    · rw [h1] at hd
      simp at hd
      subst hd
      simp only [List.mem_cons, List.not_mem_nil, or_false] at he
      rcases he with rfl | rfl | rfl | rfl <;> decide
  unfold stoi
  rw [hst]
  by_cases hb : n < 2147483648
  · have : fitsInt (n : Int) = true := by simp [fitsInt]; omega
    simp [this, hb]
  · have : fitsInt (n : Int) = false := by simp [fitsInt]; omega
    simp [this, hb]

/-- C30 (partial): base, digits and width of a binary or hexadecimal bit string, of any length, with or without a size and with or
without the unsigned prefix.
Missing (the code violates it, see below): octal and decimal bases, the prefix `s` without size, a size with underscores. The width
0 as explicit size and widths of 2^31 and more are outside the range of the field. -/
theorem C30_partial (l : HLit) (h : l.Ok) (hb : l.base = .bin ∨ l.base = .hex)
    (hsg : l.size = none → l.sign ≠ some 's' ∧ l.sign ≠ some 'S') (hu : ∀ s, l.size = some s → '_' ∉ s)
    (w : Nat) (hw : l.width = some w) (hw0 : l.size ≠ none → w ≠ 0) (hw1 : w < 2147483648) :
    ∃ v, vhdlBitString l.text = .ok v ∧ v.bits = w ∧ v.int.base = l.base.radix ∧ v.int.bitstring = canon l.digits ∧
      numVal l.base.radix v.int.bitstring = numVal l.base.radix l.digits := by
  obtain ⟨hl1, hl2, -, hr⟩ := HLit.letter_facts h
  have hr1 : (vhdlRadix (Spec.lower l.letter)).1 = l.base.radix := by
    rw [hr]; rcases hb with h1 | h1 <;> rw [h1] <;> rfl
  have key := vhdlBitString_eq (HLit.pre l) l.letter l.digits (HLit.pre_facts h) hl1 (HLit.pre_us h hu) hl2 (HLit.digits_nul h)
  rw [← HLit.text_eq] at key
  cases hs : l.size with
  | none =>
    rw [readsSize_none h hs (hsg hs)] at key
    simp only [Bool.false_eq_true, if_false, if_true] at key
    refine ⟨_, key, ?_, hr1, rfl, numVal_canon _ _⟩
    have hwe : l.base.bitsPerDigit.map (· * l.count) = some w := by
      rw [← hw]; unfold HLit.width; rw [hs]
    have hlen : (canon l.digits).length = l.count := by simp [canon, HLit.count]
    show toInt32 _ = _
    rw [hlen]
    have : l.count * (vhdlRadix (Spec.lower l.letter)).2 = w := by
      rw [hr]
      rcases hb with h1 | h1 <;> rw [h1] at hwe ⊢ <;> simp [HBase.bitsPerDigit] at hwe ⊢ <;> omega
    rw [this, toInt32_small hw1]
  | some s =>
    rw [readsSize_some h hs (hu s hs)] at key
    have hn : numVal 10 s = some w := by rw [← hw]; unfold HLit.width; rw [hs]
    simp only [if_true] at key
    rw [stoi_size h hs (hu s hs) hn, if_pos hw1] at key
    have : (w : Int) ≠ 0 := by have := hw0 (by simp [hs]); omega
    simp only [this, if_false] at key
    exact ⟨_, key, rfl, hr1, rfl, numVal_canon _ _⟩

/-- C30 (violated): an octal bit string without size gets two bits per digit instead of three. -/
theorem C30_violated_octal (l : HLit) (h : l.Ok) (hb : l.base = .oct) (hs : l.size = none)
    (hsg : l.sign ≠ some 's' ∧ l.sign ≠ some 'S') (hd : l.count ≠ 0) (hc : l.count < 500000000) :
    ∃ v, vhdlBitString l.text = .ok v ∧ v.bits = 2 * l.count ∧ l.width = some (3 * l.count) ∧ l.width ≠ some v.bits.toNat := by
  obtain ⟨hl1, hl2, -, hr⟩ := HLit.letter_facts h
  have key := vhdlBitString_eq (HLit.pre l) l.letter l.digits (HLit.pre_facts h) hl1
    (HLit.pre_us h (by intro s h1; rw [hs] at h1; simp at h1)) hl2 (HLit.digits_nul h)
  rw [← HLit.text_eq, readsSize_none h hs hsg] at key
  simp only [Bool.false_eq_true, if_false, if_true] at key
  have hlen : (canon l.digits).length = l.count := by simp [canon, HLit.count]
  have hw : l.width = some (3 * l.count) := by
    unfold HLit.width; rw [hs, hb]; rfl
  have hv : toInt32 ((canon l.digits).length * (vhdlRadix (Spec.lower l.letter)).2) = 2 * l.count := by
    rw [hlen, hr, hb, toInt32_small (by simp only; omega)]; simp only; omega
  refine ⟨_, key, hv, hw, ?_⟩
  rw [hw]
  show some _ ≠ some (toInt32 _).toNat
  rw [hv]
  simp; omega

/-- C30 (violated): a decimal bit string is labelled with base 16. -/
theorem C30_violated_decimal (l : HLit) (h : l.Ok) (hb : l.base = .dec) (hu : ∀ s, l.size = some s → '_' ∉ s) (v : IntVal)
    (hv : vhdlBitString l.text = .ok v) : v.int.base = 16 ∧ v.int.base ≠ l.base.radix := by
  obtain ⟨hl1, hl2, -, hr⟩ := HLit.letter_facts h
  have key := vhdlBitString_eq (HLit.pre l) l.letter l.digits (HLit.pre_facts h) hl1 (HLit.pre_us h hu) hl2 (HLit.digits_nul h)
  rw [← HLit.text_eq, hv] at key
  have hr1 : (vhdlRadix (Spec.lower l.letter)).1 = 16 := by rw [hr, hb]
  revert key
  split
  · intro h; cases h
  · intro h
    cases h
    rw [hb]
    exact ⟨hr1, by show (vhdlRadix (Spec.lower l.letter)).1 ≠ _; rw [hr1]; decide⟩

/-- `12d"10"`: ten, returned as the digits `10` in base 16. -/
example : vhdlBitString (c! "12d\"10\"") = .ok ⟨12, ⟨0, c! "10", 16⟩⟩ := by decide

/-- C30 (violated): a signed bit string without a size is refused (`std::stoi` of a text that starts with the letter `s`). -/
theorem C30_violated_signed (l : HLit) (h : l.Ok) (hs : l.size = none) (hsg : l.sign = some 's' ∨ l.sign = some 'S') :
    vhdlBitString l.text = .error .invalidArg := by
  obtain ⟨hl1, hl2, -, hr⟩ := HLit.letter_facts h
  have key := vhdlBitString_eq (HLit.pre l) l.letter l.digits (HLit.pre_facts h) hl1
    (HLit.pre_us h (by intro s h1; rw [hs] at h1; simp at h1)) hl2 (HLit.digits_nul h)
  have hp : readsSize (HLit.pre l) = true ∧ ∃ r, (HLit.pre l ++ l.letter :: '"' :: (l.digits ++ ['"'])).map Spec.lower = 's' :: r := by
    unfold HLit.pre
    rw [hs]
    rcases hsg with h1 | h1 <;> rw [h1] <;> exact ⟨rfl, _, rfl⟩
  obtain ⟨h1, r, h2⟩ := hp
  rw [← HLit.text_eq] at key h2
  rw [h1, h2] at key
  simp only [if_true] at key
  have : stoi ('s' :: r) = .error .invalidArg := by
    simp [stoi, strtol, isSpaceC, isDigitC]
  rw [this] at key
  exact key

/-- C30 (violated): an underscore in the size: the size is cut at the underscore and the first digit is lost. -/
theorem C30_violated_size : vhdlBitString (c! "1_6x\"00ff\"") = .ok ⟨1, ⟨0, c! "0ff", 16⟩⟩ := by decide

/-- The hypotheses of the C30 theorems hold for `12ux"F_0"`, `o"17"`, `d"10"` and `sx"F"`. -/
example : HLit.Ok ⟨some (c! "12"), some 'u', .hex, 'x', c! "F_0"⟩ ∧ HLit.width ⟨some (c! "12"), some 'u', .hex, 'x', c! "F_0"⟩ = some 12 ∧
    HLit.text ⟨some (c! "12"), some 'u', .hex, 'x', c! "F_0"⟩ = c! "12ux\"F_0\"" :=
  ⟨⟨by rintro s ⟨⟩; decide, .inr ⟨by decide, 'u', by decide, rfl⟩, by decide, by decide⟩, by decide, by decide⟩
example : HLit.Ok ⟨none, none, .oct, 'o', c! "17"⟩ ∧ HLit.Ok ⟨none, none, .dec, 'd', c! "10"⟩ ∧ HLit.Ok ⟨none, some 's', .hex, 'x', c! "F"⟩ :=
  ⟨⟨by rintro s ⟨⟩, .inl rfl, by decide, by decide⟩, ⟨by rintro s ⟨⟩, .inl rfl, by decide, by decide⟩,
    ⟨by rintro s ⟨⟩, .inr ⟨by decide, 's', by decide, rfl⟩, by decide, by decide⟩⟩
example : vhdlBitString (c! "12ux\"F_0\"") = .ok ⟨12, ⟨0, c! "f0", 16⟩⟩ ∧ vhdlBitString (c! "B\"0_1\"") = .ok ⟨2, ⟨0, c! "01", 2⟩⟩ := by decide

/-! ## C31: VHDL decimal literals -/

/-- C31 (partial): an integer literal without underscores and exponent below 2^31 keeps its value.
Missing (the code violates it, see below): underscores, exponents, larger values. -/
theorem C31_partial (t : Str) (h : IsUnsignedNumber t) (hu : '_' ∉ t) (n : Nat) (hn : numVal 10 t = some n) (hb : n < 2147483648) :
    ∃ v, vhdlDecimal t = .ok (.int v) ∧ v.int.val = n ∧ v.int.bitstring = [] := by
  obtain ⟨c, ds, rfl, hc, hds⟩ := size_digits h hu
  have hall : ∀ d ∈ c :: ds, 48 ≤ d.toNat ∧ d.toNat ≤ 57 := by
    intro d hd; rcases List.mem_cons.1 hd with rfl | hd
    · exact hc
    · exact hds d hd
  rw [numVal, numValAcc_digits _ _ hall, Option.some.injEq] at hn
  have hany : (c :: ds).any (fun c => decide (c = '.') || decide (c = 'e') || decide (c = 'E')) = false := by
    rw [List.any_eq_false]
    intro d hd
    have := hall d hd
    have h1 : d ≠ '.' := by rintro rfl; simp at this
    have h2 : d ≠ 'e' := by rintro rfl; simp at this
    have h3 : d ≠ 'E' := by rintro rfl; simp at this
    simp [h1, h2, h3]
  have hst := strtol_digits (r := []) hc hds (by simp)
  rw [List.append_nil, hn] at hst
  have hf : fitsInt (n : Int) = true := by simp [fitsInt]; omega
  unfold vhdlDecimal
  rw [hany]
  simp only [Bool.false_eq_true, if_false, atoi, hst, hf, if_true]
  exact ⟨_, rfl, rfl, rfl⟩

example : vhdlDecimal (c! "2147483647") = .ok (.int (.ofBig (.ofInt 2147483647))) := by decide

/-- C31 (violated): a literal of 2^31 or more overflows `atoi`, which is undefined behaviour. -/
theorem C31_violated_big (t : Str) (h : IsUnsignedNumber t) (hu : '_' ∉ t) (n : Nat) (hn : numVal 10 t = some n) (hb : 2147483648 ≤ n) :
    vhdlDecimal t = .error .ub := by
  obtain ⟨c, ds, rfl, hc, hds⟩ := size_digits h hu
  have hall : ∀ d ∈ c :: ds, 48 ≤ d.toNat ∧ d.toNat ≤ 57 := by
    intro d hd; rcases List.mem_cons.1 hd with rfl | hd
    · exact hc
    · exact hds d hd
  rw [numVal, numValAcc_digits _ _ hall, Option.some.injEq] at hn
  have hany : (c :: ds).any (fun c => decide (c = '.') || decide (c = 'e') || decide (c = 'E')) = false := by
    rw [List.any_eq_false]
    intro d hd
    have := hall d hd
    have h1 : d ≠ '.' := by rintro rfl; simp at this
    have h2 : d ≠ 'e' := by rintro rfl; simp at this
    have h3 : d ≠ 'E' := by rintro rfl; simp at this
    simp [h1, h2, h3]
  have hst := strtol_digits (r := []) hc hds (by simp)
  rw [List.append_nil, hn] at hst
  have hf : fitsInt (n : Int) = false := by simp [fitsInt]; omega
  unfold vhdlDecimal
  rw [hany]
  simp only [Bool.false_eq_true, if_false, atoi, hst, hf]
  rfl

example : vhdlDecimal (c! "4294967296") = .error .ub := by decide

/-- C31 (violated): everything behind an underscore is ignored: `a_b...` is returned as `a`. -/
theorem C31_violated_underscore (a b : Str) (ha : IsUnsignedNumber a) (hua : '_' ∉ a) (hb : ∀ c ∈ b, 48 ≤ c.toNat ∧ c.toNat ≤ 57)
    (n : Nat) (hn : numVal 10 a = some n) (hlt : n < 2147483648) :
    vhdlDecimal (a ++ '_' :: b) = .ok (.int (.ofBig (.ofInt n))) := by
  obtain ⟨c, ds, rfl, hc, hds⟩ := size_digits ha hua
  have hall : ∀ d ∈ c :: ds, 48 ≤ d.toNat ∧ d.toNat ≤ 57 := by
    intro d hd; rcases List.mem_cons.1 hd with rfl | hd
    · exact hc
    · exact hds d hd
  rw [numVal, numValAcc_digits _ _ hall, Option.some.injEq] at hn
  have hany : (c :: ds ++ '_' :: b).any (fun c => decide (c = '.') || decide (c = 'e') || decide (c = 'E')) = false := by
    rw [List.any_eq_false]
    intro d hd
    have : d = '_' ∨ 48 ≤ d.toNat ∧ d.toNat ≤ 57 := by
      rcases List.mem_append.1 hd with hd | hd
      · exact .inr (hall d hd)
      · rcases List.mem_cons.1 hd with hd | hd
        · exact .inl hd
        · exact .inr (hb d hd)
    have h1 : d ≠ '.' := by rintro rfl; simp at this
    have h2 : d ≠ 'e' := by rintro rfl; simp at this
    have h3 : d ≠ 'E' := by rintro rfl; simp at this
    simp [h1, h2, h3]
  have hst := strtol_digits (r := '_' :: b) hc hds (by simp; decide)
  rw [hn] at hst
  have hf : fitsInt (n : Int) = true := by simp [fitsInt]; omega
  unfold vhdlDecimal
  rw [hany]
  simp only [Bool.false_eq_true, if_false, atoi, hst, hf, if_true]
  rfl

/-- `1_000` is returned as 1 and `1e3`, an integer, as a floating point number. -/
example : vhdlDecimal (c! "1_000") = .ok (.int (.ofBig (.ofInt 1))) ∧ numVal 10 (c! "1_000") = some 1000 ∧
    vhdlDecimal (c! "1e3") = .ok (.float (c! "1e3")) := by decide

/-! ## C32: VHDL based literals -/

/-- C32 (violated): the digits of a based literal `base#digits#` are returned with the `#` in front and with underscores, so the
returned text is not a number in any base. The base is right.
`e` is the exponent; it is ignored. -/
theorem C32_violated (b digits e : Str) (hb : IsUnsignedNumber b) (hu : '_' ∉ b) (hd : '#' ∉ digits) (n : Nat)
    (hn : numVal 10 b = some n) (hlt : n < 2147483648) :
    ∃ v, vhdlBased (b ++ '#' :: (digits ++ '#' :: e)) = .ok v ∧ v.int.base = n ∧ v.int.bitstring = '#' :: digits ∧
      ∀ radix, numVal radix v.int.bitstring = none := by
  obtain ⟨c, ds, rfl, hc, hds⟩ := size_digits hb hu
  have hall : ∀ d ∈ c :: ds, 48 ≤ d.toNat ∧ d.toNat ≤ 57 := by
    intro d hd; rcases List.mem_cons.1 hd with rfl | hd
    · exact hc
    · exact hds d hd
  rw [numVal, numValAcc_digits _ _ hall, Option.some.injEq] at hn
  have hst := strtol_digits (r := []) hc hds (by simp)
  rw [List.append_nil, hn] at hst
  generalize hB : c :: ds = B at *
  have hf1 : find (B ++ '#' :: (digits ++ '#' :: e)) ['#'] 0 = some B.length := by
    rw [find_some]
    refine ⟨by omega, by simp, ?_, ?_⟩
    · rw [prefix_singleton_drop]; simp
    · intro j _ hj hp
      rw [prefix_singleton_drop, List.getElem?_append_left hj] at hp
      have := hall _ (List.mem_of_getElem? hp)
      simp at this
  have hf2 : find (B ++ '#' :: (digits ++ '#' :: e)) ['#'] (B.length + 1) = some (B.length + 1 + digits.length) := by
    rw [find_some]
    refine ⟨by omega, by simp; omega, ?_, ?_⟩
    · rw [prefix_singleton_drop]
      rw [List.getElem?_append_right (by omega)]
      have : B.length + 1 + digits.length - B.length = digits.length + 1 := by omega
      rw [this]; simp
    · intro j h1 hj hp
      rw [prefix_singleton_drop, List.getElem?_append_right (by omega)] at hp
      obtain ⟨k, hk⟩ : ∃ k, j = B.length + 1 + k := ⟨j - B.length - 1, by omega⟩
      subst hk
      have h2 : B.length + 1 + k - B.length = k + 1 := by omega
      rw [h2, List.getElem?_cons_succ, List.getElem?_append_left (by omega)] at hp
      exact hd (List.mem_of_getElem? hp)
  have hfit : fitsInt (n : Int) = true := by simp [fitsInt]; omega
  refine ⟨⟨-1, ⟨0, '#' :: digits, n⟩⟩, ?_, rfl, rfl, fun radix => rfl⟩
  unfold vhdlBased
  rw [hf1]
  simp only [hf2, List.take_left, atoi, hst, hfit, if_true]
  have : List.take (B.length + 1 + digits.length - B.length) (List.drop B.length (B ++ '#' :: (digits ++ '#' :: e))) = '#' :: digits := by
    have h2 : B.length + 1 + digits.length - B.length = digits.length + 1 := by omega
    rw [h2]; simp
  rw [this]
  rfl

/-- `16#F_F#E1` is returned as the text `#F_F`. -/
example : vhdlBased (c! "16#F_F#E1") = .ok ⟨-1, ⟨0, c! "#F_F", 16⟩⟩ := by decide

/-! ## C33: VHDL strings -/

theorem replaced_quotes (n : Nat) (t : Str) (hn : t.length ≤ n) :
    Replaced ['"', '"'] ['"'] (t.flatMap (fun c => if c = '"' then ['"', '"'] else [c])) t := by
  induction n generalizing t with
  | zero =>
    have : t = [] := by cases t <;> simp at hn ⊢
    subst this
    exact .done [] (by rintro ⟨a, b, h⟩; simp at h)
  | succ n ih =>
    by_cases h : '"' ∈ t
    · obtain ⟨pre, post, rfl, hp⟩ := List.eq_append_cons_of_mem h
      have hid : pre.flatMap (fun c => if c = '"' then ['"', '"'] else [c]) = pre := by
        clear hn h
        induction pre with
        | nil => rfl
        | cons a r ih2 =>
          simp only [List.mem_cons, not_or] at hp
          have ha : ¬ a = '"' := fun e => hp.1 e.symm
          rw [List.flatMap_cons, ih2 hp.2]
          simp [ha]
      rw [List.flatMap_append, hid, List.flatMap_cons]
      simp only [if_true]
      have := Replaced.step (s := ['"', '"']) (r := ['"']) pre (post.flatMap (fun c => if c = '"' then ['"', '"'] else [c])) post ?_
        (ih post (by simp at hn; omega))
      · simpa using this
      · intro u v huv
        by_contra hlt
        have hlt : u.length < pre.length := by omega
        have h1 : (pre ++ ['"', '"'] ++ post.flatMap (fun c => if c = '"' then ['"', '"'] else [c]))[u.length]? = some '"' := by
          rw [huv]; simp
        rw [List.append_assoc, List.getElem?_append_left hlt] at h1
        exact hp (List.mem_of_getElem? h1)
    · have hid : t.flatMap (fun c => if c = '"' then ['"', '"'] else [c]) = t := by
        clear hn
        induction t with
        | nil => rfl
        | cons a r ih2 =>
          simp only [List.mem_cons, not_or] at h
          have ha : ¬ a = '"' := fun e => h.1 e.symm
          rw [List.flatMap_cons, ih2 h.2]
          simp [ha]
      rw [hid]
      refine .done t ?_
      rintro ⟨a, b, rfl⟩
      simp at h

/-- C33: a text written as a VHDL string literal (quotes doubled) is read back exactly. -/
theorem C33_string_roundtrip (t : Str) : vhdlString (vhdlQuote t) = .ok t := by
  unfold vhdlString vhdlQuote
  generalize hD : t.flatMap (fun c => if c = '"' then ['"', '"'] else [c]) = D
  have hs : substr ('"' :: (D ++ ['"'])) 1 (some (('"' :: (D ++ ['"'])).length - 2)) = some D := by
    simp [substr]
  rw [hs]
  obtain ⟨r, h1, h2⟩ := replaceLoop_spec (search := ['"', '"']) (repl := ['"']) (by simp) (D.length + 1) [] D (by omega)
  simp only [List.nil_append, List.length_nil] at h1
  show replaceLoop _ _ _ _ _ = _
  rw [h1, h2.unique (hD ▸ replaced_quotes t.length t (by omega))]

example : vhdlQuote (c! "a\"\"b") = c! "\"a\"\"\"\"b\"" := by decide

/-! ## C34: escaped identifiers -/

/-- C34 (violated): the white space that ends an escaped identifier (the lexer includes at least one character) stays in the name. -/
theorem C34_violated (name ws : Str) (hne : ws ≠ []) :
    svEscapedId ('\\' :: (name ++ ws)) = .ok (name ++ ws) ∧ svEscapedId ('\\' :: (name ++ ws)) ≠ .ok name := by
  have : svEscapedId ('\\' :: (name ++ ws)) = .ok (name ++ ws) := by simp [svEscapedId, substr]
  refine ⟨this, ?_⟩
  rw [this]
  intro h
  have := Except.ok.inj h
  simp at this
  exact hne this

/-- C34 (violated): two uses of the same identifier ended by different white space get different names. -/
theorem C34_violated_two (name ws1 ws2 : Str) (h : ws1 ≠ ws2) :
    svEscapedId ('\\' :: (name ++ ws1)) ≠ svEscapedId ('\\' :: (name ++ ws2)) := by
  have e : ∀ ws : Str, svEscapedId ('\\' :: (name ++ ws)) = .ok (name ++ ws) := fun ws => by simp [svEscapedId, substr]
  rw [e, e]
  intro hh
  have := Except.ok.inj hh
  simp at this
  exact h this

/-- C34 (partial): apart from trailing white space the name is right: a reader that drops the white space at the end of the
returned name gets the identifier. Missing: the code does not do it. -/
theorem C34_partial (name ws : Str) (hws : IsWs ws) (hn : ∀ c ∈ name, ¬ (c = ' ' ∨ c = '\t' ∨ c = '\n' ∨ c = '\r' ∨ c = '\x0c')) :
    ∃ r, svEscapedId ('\\' :: (name ++ ws)) = .ok r ∧
      r.takeWhile (fun c => ¬ (c = ' ' ∨ c = '\t' ∨ c = '\n' ∨ c = '\r' ∨ c = '\x0c')) = name ∧ IsWs (r.drop name.length) := by
  refine ⟨name ++ ws, by simp [svEscapedId, substr], ?_, by simpa using hws⟩
  rw [List.takeWhile_append_of_pos (by intro c hc; simpa using hn c hc)]
  cases ws with
  | nil => simp
  | cons a r =>
    have := hws a (by simp)
    simp [List.takeWhile, this]

example : svEscapedId (c! "\\a+b ") = .ok (c! "a+b ") := by decide

/-! ## C60: VHDL character literals

A text is the UTF-8 encoding of the source, one `Char` per byte. -/

/-- C60 (partial): a character literal whose character is one byte keeps its character. Missing: characters of more bytes, where the
code violates it. -/
theorem C60_partial (c : Char) : ∃ v, vhdlChar ['\'', c, '\''] = .ok v ∧ v.int.bitstring = [c] ∧ v.int.base = 256 ∧
    ∃ w, vhdlEnumChar ['\'', c, '\''] = .ok w ∧ w.int = v.int ∧ w.bits = 8 :=
  ⟨_, rfl, rfl, rfl, _, rfl, rfl, rfl⟩

/-- C60 (violated): of a character encoded in several bytes only the first byte is kept. -/
theorem C60_violated (b0 b1 : Char) (bs : Str) : ∃ v, vhdlChar ('\'' :: b0 :: b1 :: (bs ++ ['\''])) = .ok v ∧
    v.int.bitstring = [b0] ∧ v.int.bitstring ≠ b0 :: b1 :: bs := by
  refine ⟨.ofStr [b0] 256, by simp [vhdlChar, substr], rfl, by simp [IntVal.ofStr, BigInt.ofStr]⟩

/-- U+00E9 is encoded as C3 A9. -/
example : vhdlChar ['\'', '\xc3', '\xa9', '\''] = .ok (.ofStr ['\xc3'] 256) := by decide

end Verif
