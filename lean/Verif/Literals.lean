import Verif.HdlAst
import Verif.StrUtils
/-!
# Model of the literal converters (src/svConvertor/literalParser.cpp, src/vhdlConvertor/literalParser.cpp)

The text of a token (`getText()`) is a `Str`, one `Char` per byte. Code positions of the created objects are left out here.
The "C" locale is assumed for `tolower`, `isspace`, `atoi`, `stoi`. `assert`s are not modelled.
-/
namespace Verif

/-- `::tolower` in the "C" locale. -/
def lowerC (c : Char) : Char := if 'A' ≤ c ∧ c ≤ 'Z' then Char.ofNat (c.toNat + 32) else c

/-- `std::transform(s.begin(), s.end(), s.begin(), ::tolower)`. -/
def lowerS (s : Str) : Str := s.map lowerC

/-- `s.erase(std::remove(s.begin(), s.end(), c), s.end())`. -/
def eraseChar (c : Char) (s : Str) : Str := s.filter (· ≠ c)

/-- `isspace` in the "C" locale. -/
def isSpaceC (c : Char) : Bool := c = ' ' || ('\x09' ≤ c && c ≤ '\x0d')

/-- `isdigit`. -/
def isDigitC (c : Char) : Bool := '0' ≤ c && c ≤ '9'

/-- The number written by decimal digits, continuing from `acc`. -/
def digitsAcc (acc : Nat) : Str → Nat
  | [] => acc
  | c :: s => digitsAcc (acc * 10 + (c.toNat - 48)) s

/-- `strtol(s, &end, 10)` without range limits: `none` if there is no digit. -/
def strtol (s : Str) : Option Int :=
  let s := s.dropWhile isSpaceC
  let sign := s.head?
  let s' := if sign = some '-' ∨ sign = some '+' then s.drop 1 else s
  let ds := s'.takeWhile isDigitC
  if ds = [] then none
  else some (if sign = some '-' then - (digitsAcc 0 ds : Int) else (digitsAcc 0 ds : Int))

/-- The range of `int`. -/
def fitsInt (v : Int) : Bool := -2147483648 ≤ v && v ≤ 2147483647

/-- `atoi`: 0 if there is no number; a value outside of `int` is undefined behaviour (C11 7.22.1). -/
def atoi (s : Str) : Except Exc Int :=
  match strtol s with
  | none => .ok 0
  | some v => if fitsInt v then .ok v else .error .ub

/-- `std::stoi`. -/
def stoi (s : Str) : Except Exc Int :=
  match strtol s with
  | none => .error .invalidArg
  | some v => if fitsInt v then .ok v else .error .outOfRange

/-- Conversion of a `size_t` (non-negative) to `int` (modulo 2^32). -/
def toInt32 (n : Nat) : Int := (BitVec.ofNat 32 n).toInt

/-! ## (System)Verilog -/

/-- src/svConvertor/literalParser.cpp 48-51. -/
def svParseSize (s : Str) : Except Exc Int := atoi (eraseChar '_' s)

/-- src/svConvertor/literalParser.cpp 52-57. -/
def svUnsigned (s : Str) : IntVal := .ofStr (eraseChar '_' s) 10

/-- src/svConvertor/literalParser.cpp 58-96; `size = none` is `npos`. A `size_t` made from an `int` and converted back to `int`
is the same number (a negative one cannot come from a token, -1 would be `npos`). -/
def svAnyBased (s : Str) (size : Option Int) : Except Exc IntVal :=
  let s := lowerS (eraseChar '_' s)
  let start := if charAt s 1 = some 's' then 3 else 2
  match charAt s (start - 1) with
  | none => .error .ub
  | some c =>
    let radix : Option Int :=
      if c = 'b' ∨ c = 'B' then some 2 else if c = 'o' ∨ c = 'O' then some 8
      else if c = 'd' ∨ c = 'D' then some 10 else if c = 'h' ∨ c = 'H' then some 16 else none
    match radix with
    | none => .error (.runtime (c! "Unknown number base:" ++ [c]))
    | some radix =>
      match substr s start with
      | none => .error .outOfRange
      | some v =>
        match size with
        | some size => .ok (.ofStrBits v size radix)
        | none => .ok (.ofStr v radix)

/-- The alternatives of the rule `integral_number` (grammars/sv2017Parser.g4 117-121). -/
inductive IntegralCtx
  | basedWithSize (t : Str)
  | anyBased (un : Option Str) (t : Str)
  | unsigned (t : Str)
deriving DecidableEq, Repr

/-- src/svConvertor/literalParser.cpp 18-47. `t.find("'")` is `npos` only if the lexer rule was not respected: `substr` throws. -/
def svIntegral : IntegralCtx → Except Exc IntVal
  | .basedWithSize t =>
    match find t ['\''] 0 with
    | none => .error .outOfRange
    | some f => do
      let size ← svParseSize (t.take f)
      svAnyBased (t.drop f) (some size)
  | .anyBased none t => svAnyBased t none
  | .anyBased (some un) t => do
    let size ← svParseSize un
    svAnyBased t (some size)
  | .unsigned t => .ok (svUnsigned t)

/-- src/svConvertor/literalParser.cpp 380-391: `UNBASED_UNSIZED_LITERAL`. -/
def svUnbased (t : Str) : Except Exc IntVal :=
  match substr t 1 with
  | none => .error .outOfRange
  | some v => .ok (.ofStr v 10)

/-- src/svConvertor/literalParser.cpp 118-122. -/
def svEscapedId (t : Str) : Except Exc Str :=
  match substr t 1 with
  | none => .error .outOfRange
  | some v => .ok v

/-- src/svConvertor/literalParser.cpp 137-140. -/
def svString (t : Str) : Except Exc Str :=
  match substr t 1 (some (t.length - 2)) with
  | none => .error .outOfRange
  | some v => .ok v

/-! ## VHDL -/

/-- The C string that starts at index `i` of the character array `s.c_str()` (`s` followed by NUL). -/
def cstrFrom (s : Str) (i : Nat) : Option Str :=
  if i ≤ s.length then some ((s.drop i).takeWhile (· ≠ '\x00')) else none

/-- src/vhdlConvertor/literalParser.cpp 22-40: radix and bits per digit. -/
def vhdlRadix (c : Char) : Int × Nat :=
  if c = 'b' then (2, 1) else if c = 'o' then (8, 2) else if c = 'x' then (16, 4) else if c = 'd' then (16, 4) else (0, 0)

/-- src/vhdlConvertor/literalParser.cpp 16-56. `s.find('"') - 1` is `npos` or `npos - 1` if the first quote is at index 0 or
missing: `s[...]` is then undefined behaviour. -/
def vhdlBitString (t : Str) : Except Exc IntVal :=
  match find t ['"'] 0 with
  | none => .error .ub
  | some 0 => .error .ub
  | some (fdRadix + 1) =>
    let s := lowerS t
    match s[fdRadix]? with
    | none => .error .ub
    | some rc =>
      let (radix, bitRatio) := vhdlRadix rc
      let hasSize : Bool :=
        (fdRadix > 0 && s[fdRadix - 1]? ≠ some 'u') || (fdRadix > 1 && s[fdRadix - 1]? = some 'u')
      match (if hasSize then stoi s else .ok 0) with
      | .error e => .error e
      | .ok bits =>
        let s := s.set (s.length - 1) '\x00'
        let s := eraseChar '_' s
        match cstrFrom s (fdRadix + 2) with
        | none => .error .ub
        | some strVal =>
          let bits := if bits = 0 then toInt32 (strVal.length * bitRatio) else bits
          .ok (.ofStrBits strVal bits radix)

/-- The two kinds of objects made from a decimal literal; the `double` is represented by its text. -/
inductive DecVal
  | float (text : Str)
  | int (v : IntVal)
deriving DecidableEq, Repr

/-- src/vhdlConvertor/literalParser.cpp 114-131. -/
def vhdlDecimal (n : Str) : Except Exc DecVal :=
  if n.any (fun c => c = '.' || c = 'e' || c = 'E') then .ok (.float n)
  else do
    let v ← atoi n
    return .int (.ofBig (.ofInt v))

/-- src/vhdlConvertor/literalParser.cpp 132-163. If there is no `#` (impossible for a token of this type) `npos + 1` is 0. -/
def vhdlBased (bl : Str) : Except Exc IntVal :=
  match find bl ['#'] 0 with
  | none => .error .outOfRange
  | some ht0 => do
    let base ← atoi (bl.take ht0)
    let digits := match find bl ['#'] (ht0 + 1) with
      | none => bl.drop ht0
      | some ht1 => (bl.drop ht0).take (ht1 - ht0)
    return .ofBig (.ofStr digits base)

/-- src/vhdlConvertor/literalParser.cpp 177-190. The lambda `replace_all` is the loop of `replace_substring`. -/
def vhdlString (t : Str) : Except Exc Str :=
  match substr t 1 (some (t.length - 2)) with
  | none => .error .outOfRange
  | some str => replaceLoop ['"', '"'] ['"'] (str.length + 1) str 0

/-- src/vhdlConvertor/literalParser.cpp 191-195 (`CHAR_BASE` is 256). -/
def vhdlChar (t : Str) : Except Exc IntVal :=
  match substr t 1 (some 1) with
  | none => .error .outOfRange
  | some v => .ok (.ofStr v 256)

/-- src/vhdlConvertor/literalParser.cpp 165-176, the character alternative (an enumeration literal): 8 bits. -/
def vhdlEnumChar (t : Str) : Except Exc IntVal := do
  let v ← vhdlChar t
  return { v with bits := 8 }

end Verif
