import Verif.Encoding
import Verif.Spec.Utf8
/-!
# Properties of the encoding conversion: C25, C26
-/
namespace Verif
open Spec

private theorem isoByte_table : ∀ n : Fin 256, ∀ r : List Nat,
    utf8Decode ((isoByte (Char.ofNat n)).map Char.toNat ++ r) = (utf8Decode r).map ((n : Nat) :: ·) := by
  intro n r
  have h : ∀ n : Fin 256, (n.val < 128 ∧ (isoByte (Char.ofNat n)).map Char.toNat = [n.val]) ∨
      ∃ a b, (isoByte (Char.ofNat n)).map Char.toNat = [a, b] ∧ 0xC2 ≤ a ∧ a ≤ 0xDF ∧ cont b = true ∧ a % 32 * 64 + b % 64 = n.val := by
    intro n
    by_cases hn : n.val < 128
    · left
      revert hn
      revert n
      decide +kernel
    · right
      refine ⟨0xC0 + n.val / 64, 0x80 + n.val % 64, ?_⟩
      revert hn
      revert n
      decide +kernel
  rcases h n with ⟨h1, h2⟩ | ⟨a, b, h1, h2, h3, h4, h5⟩
  · rw [h2, List.singleton_append]
    conv_lhs => unfold utf8Decode
    rw [if_pos h1]
  · rw [h1, List.cons_append, List.cons_append]
    conv_lhs => unfold utf8Decode
    rw [if_neg (by omega), if_pos ⟨h2, h3⟩]
    simp only [h4, if_true, h5, List.nil_append]

/-- **C25**: decoding the produced bytes as (strict) UTF-8 succeeds and gives exactly the codes of the input bytes. -/
theorem C25_iso_8859_1 (s : Str) (h : IsBytes s) :
    utf8Decode ((iso88591ToUtf8 s).map Char.toNat) = some (s.map Char.toNat) := by
  induction s with
  | nil => rfl
  | cons c r ih =>
    have hc : c.toNat < 256 := h c (by simp)
    have := isoByte_table ⟨c.toNat, hc⟩ ((iso88591ToUtf8 r).map Char.toNat)
    simp only [Char.ofNat_toNat] at this
    rw [iso88591ToUtf8, List.map_append, this, ih (fun x hx => h x (by simp [hx]))]
    rfl

/-- **C25**: distinct byte strings give distinct texts. -/
theorem C25_injective (s t : Str) (hs : IsBytes s) (ht : IsBytes t) (h : iso88591ToUtf8 s = iso88591ToUtf8 t) : s = t := by
  have h1 := C25_iso_8859_1 s hs
  rw [h, C25_iso_8859_1 t ht] at h1
  have := Option.some.inj h1
  exact (List.map_injective_iff.2 (fun a b hab => Char.toNat_inj.1 hab) this).symm

example : IsBytes [Char.ofNat 0xE9, 'a', Char.ofNat 0xFF] ∧
    iso88591ToUtf8 [Char.ofNat 0xE9, 'a'] = [Char.ofNat 0xC3, Char.ofNat 0xA9, 'a'] := by
  constructor
  · intro c hc; simp at hc; rcases hc with rfl | rfl | rfl <;> decide
  · decide

/-- Texts that consist of ASCII characters are the same in both encodings. -/
theorem C25_ascii (s : Str) (h : ∀ c ∈ s, c.toNat < 128) : iso88591ToUtf8 s = s := by
  induction s with
  | nil => rfl
  | cons c r ih =>
    have hc := h c (by simp)
    rw [iso88591ToUtf8, ih (fun x hx => h x (by simp [hx]))]
    have : isoByte c = [c] := by
      unfold isoByte
      simp only
      rw [Nat.mod_eq_of_lt (by omega), if_pos hc, Char.ofNat_toNat]
    rw [this]
    rfl

/-- **C26**: 'utf-8' passes bytes through, 'iso-8859-1' converts, every name other than the three raises an error that
has the name in its message. Missing for the full property: 'utf-16', see below. -/
theorem C26_dispatch_partial (s enc : Str) :
    toUtf8 s (c! "utf-8") = .ok s ∧
    (IsBytes s → ∃ t, toUtf8 s (c! "iso-8859-1") = .ok t ∧ utf8Decode (t.map Char.toNat) = some (s.map Char.toNat)) ∧
    (enc ∉ [c! "utf-8", c! "utf-16", c! "iso-8859-1"] → ∃ m, toUtf8 s enc = .error (.runtime m) ∧ enc <:+ m) := by
  refine ⟨by simp [toUtf8], fun h => ⟨iso88591ToUtf8 s, by simp [toUtf8], C25_iso_8859_1 s h⟩, ?_⟩
  intro h
  simp only [List.mem_cons, List.not_mem_nil, or_false, not_or] at h
  refine ⟨c! "iParserContainer implemented only for utf-8, utf-16 and iso-8859-1, recieved:" ++ enc, ?_, List.suffix_append _ _⟩
  · unfold toUtf8
    rw [if_neg h.1, if_neg h.2.1, if_neg h.2.2]

example : (c! "latin2") ∉ [c! "utf-8", c! "utf-16", c! "iso-8859-1"] := by decide

/-- **C26 is false** for 'utf-16': there is no input for which the conversion is defined. (The object is used as an object of
another type; with the usual memory layout twice the length of the text is read.) -/
theorem C26_violated_utf16 (s : Str) : ¬ ∃ t, toUtf8 s (c! "utf-16") = .ok t := by
  rintro ⟨t, h⟩
  simp [toUtf8] at h

end Verif
