import Verif.CppString
/-!
# Model of `src/encodingConversions.cpp`

A byte string is a `Str` whose characters are below 256 (`IsBytes`).
-/
namespace Verif

/-- Every character is a byte. -/
def IsBytes (s : Str) : Prop := ∀ c ∈ s, c.toNat < 256

/-- encodingConversions.cpp 10-18: the body of the loop. `uint8_t ch = *it` takes the value modulo 256. -/
def isoByte (c : Char) : Str :=
  let ch := c.toNat % 256
  if ch < 0x80 then [Char.ofNat ch]
  else [Char.ofNat (0xc0 ||| (ch >>> 6)), Char.ofNat (0x80 ||| (ch &&& 0x3f))]

/-- encodingConversions.cpp 7-20. -/
def iso88591ToUtf8 : Str → Str
  | [] => []
  | c :: r => isoByte c ++ iso88591ToUtf8 r

/-- encodingConversions.cpp 22-43. For "utf-16" the code reinterprets the memory of a `std::string` object as a
`std::u16string` object and reads through it: undefined behaviour (strict aliasing; and the length counts bytes, so
twice the allocated memory would be read). -/
def toUtf8 (s enc : Str) : Except Exc Str :=
  if enc = c! "utf-8" then .ok s
  else if enc = c! "utf-16" then .error .ub
  else if enc = c! "iso-8859-1" then .ok (iso88591ToUtf8 s)
  else .error (.runtime (c! "iParserContainer implemented only for utf-8, utf-16 and iso-8859-1, recieved:" ++ enc))

end Verif
