import Verif.CppString
/-!
# Specification: number literals of (System)Verilog and VHDL as the language standards define them

Independent of the code model. Literals are described by their parts; the text is the concatenation of the parts.
-/
namespace Verif.Spec

/-- Value of a digit character. -/
def digitVal (c : Char) : Option Nat :=
  let n := c.toNat
  if 48 ≤ n ∧ n ≤ 57 then some (n - 48)
  else if 97 ≤ n ∧ n ≤ 102 then some (n - 87)
  else if 65 ≤ n ∧ n ≤ 70 then some (n - 55)
  else none

/-- The number written by a text of digits in base `b`, underscores ignored, both letter cases allowed; `none` if there is another
character (an x/z digit, a digit that is too big). `acc` is the value of the digits read so far. -/
def numValAcc (b acc : Nat) : Str → Option Nat
  | [] => some acc
  | c :: r =>
    if c = '_' then numValAcc b acc r
    else match digitVal c with
      | none => none
      | some d => if d < b then numValAcc b (acc * b + d) r else none

/-- `numValAcc` from the start. -/
def numVal (b : Nat) (s : Str) : Option Nat := numValAcc b 0 s

/-- Lower case of a letter (ASCII). -/
def lower (c : Char) : Char := if 65 ≤ c.toNat ∧ c.toNat ≤ 90 then Char.ofNat (c.toNat + 32) else c

/-- The digits as a tool should report them: no underscores, lower case. -/
def canon (s : Str) : Str := (s.filter (· ≠ '_')).map lower

/-- Text accepted by the lexer for `UNSIGNED_NUMBER`: a decimal digit, then digits and underscores. -/
def IsUnsignedNumber (s : Str) : Prop :=
  (∃ c, s.head? = some c ∧ 48 ≤ c.toNat ∧ c.toNat ≤ 57) ∧
  ∀ c ∈ s, c = '_' ∨ (48 ≤ c.toNat ∧ c.toNat ≤ 57)

instance (s : Str) : Decidable (IsUnsignedNumber s) := by
  unfold IsUnsignedNumber
  cases h : s.head? with
  | none => exact .isFalse (by rintro ⟨⟨c, hc, -⟩, -⟩; simp at hc)
  | some c =>
    by_cases h2 : 48 ≤ c.toNat ∧ c.toNat ≤ 57
    · by_cases h3 : ∀ c ∈ s, c = '_' ∨ (48 ≤ c.toNat ∧ c.toNat ≤ 57)
      · exact .isTrue ⟨⟨c, rfl, h2⟩, h3⟩
      · exact .isFalse (fun h => h3 h.2)
    · exact .isFalse (by rintro ⟨⟨d, hd, h⟩, -⟩; cases hd; exact h2 h)

/-- White space of the Verilog lexer. -/
def IsWs (s : Str) : Prop := ∀ c ∈ s, c = ' ' ∨ c = '\t' ∨ c = '\n' ∨ c = '\r' ∨ c = '\x0c'

instance (s : Str) : Decidable (IsWs s) := by unfold IsWs; infer_instance

/-- The four bases of Verilog. -/
inductive VBase | bin | oct | dec | hex
deriving DecidableEq, Repr

/-- The numeric base. -/
def VBase.radix : VBase → Nat | bin => 2 | oct => 8 | dec => 10 | hex => 16

/-- The two letters that select the base. -/
def VBase.letters : VBase → List Char
  | bin => ['b', 'B'] | oct => ['o', 'O'] | dec => ['d', 'D'] | hex => ['h', 'H']

/-- A based number of Verilog (IEEE 1800 5.7.1): `'`, white space, sign letter, white space, base letter, white space, digits. -/
structure VLit where
  ws1 : Str
  sign : Option Char
  ws2 : Str
  base : VBase
  letter : Char
  ws3 : Str
  digits : Str

/-- The text of the literal. -/
def VLit.text (l : VLit) : Str := '\'' :: (l.ws1 ++ l.sign.toList ++ l.ws2 ++ l.letter :: (l.ws3 ++ l.digits))

/-- A digit the lexer accepts in this base. -/
def VBase.isDigit (b : VBase) (c : Char) : Prop :=
  c = 'x' ∨ c = 'X' ∨ c = 'z' ∨ c = 'Z' ∨ c = '?' ∨ ∃ d, digitVal c = some d ∧ d < b.radix

/-- The literal is one the lexer accepts. -/
structure VLit.Ok (l : VLit) : Prop where
  ws : IsWs l.ws1 ∧ IsWs l.ws2 ∧ IsWs l.ws3
  sign : l.sign = none ∨ l.sign = some 's' ∨ l.sign = some 'S'
  letter : l.letter ∈ l.base.letters
  digits : l.digits ≠ [] ∧ l.digits.head? ≠ some '_' ∧ ∀ c ∈ l.digits, c = '_' ∨ l.base.isDigit c

/-- Value of a sized literal without x/z digits: the digits modulo 2^size, read as two's complement if signed. -/
def VLit.value (l : VLit) (size : Nat) : Option Int :=
  (numVal l.base.radix l.digits).map fun n =>
    let m : Nat := n % 2 ^ size
    if l.sign ≠ none ∧ 2 ^ (size - 1) ≤ m then (m : Int) - 2 ^ size else (m : Int)

/-- The bases of VHDL bit strings. -/
inductive HBase | bin | oct | hex | dec
deriving DecidableEq, Repr

/-- The numeric base. -/
def HBase.radix : HBase → Nat | bin => 2 | oct => 8 | hex => 16 | dec => 10

/-- Bits per digit (no such number for decimal bit strings). -/
def HBase.bitsPerDigit : HBase → Option Nat | bin => some 1 | oct => some 3 | hex => some 4 | dec => none

/-- The letters. -/
def HBase.letters : HBase → List Char
  | bin => ['b', 'B'] | oct => ['o', 'O'] | hex => ['x', 'X'] | dec => ['d', 'D']

/-- A VHDL bit string literal (IEEE 1076 15.8): size, sign letter (u or s), base letter, digits in quotes. -/
structure HLit where
  size : Option Str
  sign : Option Char
  base : HBase
  letter : Char
  digits : Str

/-- The text of the literal. -/
def HLit.text (l : HLit) : Str := l.size.getD [] ++ l.sign.toList ++ l.letter :: '"' :: (l.digits ++ ['"'])

/-- The literal is one the lexer accepts (the size is an integer, no quotes between the quotes, a base of decimal has no sign). -/
structure HLit.Ok (l : HLit) : Prop where
  size : ∀ s, l.size = some s → IsUnsignedNumber s
  sign : l.sign = none ∨ (l.base ≠ .dec ∧ ∃ c ∈ ['u', 'U', 's', 'S'], l.sign = some c)
  letter : l.letter ∈ l.base.letters
  digits : ∀ c ∈ l.digits, c ≠ '"' ∧ c ≠ '\x00'

/-- Number of digits. -/
def HLit.count (l : HLit) : Nat := (l.digits.filter (· ≠ '_')).length

/-- Width of the value, if the literal determines it by its size or by its number of digits. -/
def HLit.width (l : HLit) : Option Nat :=
  match l.size with
  | some s => numVal 10 s
  | none => l.base.bitsPerDigit.map (· * l.count)

/-- The text of a VHDL string literal for a text: quotes are doubled. -/
def vhdlQuote (t : Str) : Str := '"' :: (t.flatMap (fun c => if c = '"' then ['"', '"'] else [c]) ++ ['"'])

/-- What the doc string should contain for the body (text behind the marker) of a line comment: one leading space dropped. -/
def docBody : Str → Str
  | ' ' :: r => r
  | r => r

end Verif.Spec
