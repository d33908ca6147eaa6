import Verif.CppString
/-!
# Specification: strict UTF-8 decoder (RFC 3629)

Works on numbers; independent of the code under verification.
-/
namespace Verif.Spec

/-- Continuation byte. -/
def cont (b : Nat) : Bool := 0x80 ≤ b && b ≤ 0xBF

/-- Decode a byte sequence, `none` if it is not well-formed UTF-8 (over-long forms and surrogates are refused). -/
def utf8Decode : List Nat → Option (List Nat)
  | [] => some []
  | a :: r =>
    if a < 0x80 then (utf8Decode r).map (a :: ·)
    else if 0xC2 ≤ a ∧ a ≤ 0xDF then
      match r with
      | b :: r => if cont b then (utf8Decode r).map ((a % 32 * 64 + b % 64) :: ·) else none
      | _ => none
    else if 0xE0 ≤ a ∧ a ≤ 0xEF then
      match r with
      | b :: c :: r =>
        let v := a % 16 * 4096 + b % 64 * 64 + c % 64
        if cont b && cont c && 0x800 ≤ v && !(0xD800 ≤ v && v ≤ 0xDFFF) then (utf8Decode r).map (v :: ·) else none
      | _ => none
    else if 0xF0 ≤ a ∧ a ≤ 0xF4 then
      match r with
      | b :: c :: d :: r =>
        let v := a % 8 * 262144 + b % 64 * 4096 + c % 64 * 64 + d % 64
        if cont b && cont c && cont d && 0x10000 ≤ v && v ≤ 0x10FFFF then (utf8Decode r).map (v :: ·) else none
      | _ => none
    else none

end Verif.Spec
