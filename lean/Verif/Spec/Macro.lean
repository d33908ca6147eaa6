import Verif.MacroDef
/-!
# Specification of macro expansion (independent of positions, intervals and fragments)
-/
namespace Verif.Spec

/-- Characters of Verilog identifiers. -/
def isIdChar (c : Char) : Bool := c.isAlphanum || c == '_' || c == '$'

/-- Opening brackets. The code refuses to substitute a parameter in front of them. -/
def isOpenBracket (c : Char) : Bool := c == '(' || c == '[' || c == '{'

/-- A formal parameter name: non-empty text of identifier characters. -/
def IsIdent (s : Str) : Prop := s ≠ [] ∧ ∀ c ∈ s, isIdChar c = true

/-- A quote toggles "inside of a string" unless it is written behind a back-tick or a backslash. -/
def isQuote (prev : Option Char) (c : Char) : Bool := c == '"' && prev != some '`' && prev != some '\\'

/-- Is this a free-standing occurrence of `name` at the beginning of `rest`: outside of a string, `prev` is not an
identifier character, and the character behind the name is not one on which substitution stops (`stop`). -/
def formalHere (stop : Char → Bool) (inStr : Bool) (prev : Option Char) (rest : Str) (name : Str) : Bool :=
  !inStr && !(prev.any isIdChar) && name.isPrefixOf rest && !((rest.drop name.length).head?.any stop)

/-- Simultaneous substitution, one pass from left to right. `sub` is the list of (formal, actual).
`skip` characters of the text belong to an already substituted name. -/
def expandFrom (stop : Char → Bool) (sub : List (Str × Str)) : Bool → Option Char → Nat → Str → Str
  | _, _, _, [] => []
  | inStr, _, skip + 1, c :: r => expandFrom stop sub inStr (some c) skip r
  | inStr, prev, 0, c :: r =>
    match sub.find? (fun p => formalHere stop inStr prev (c :: r) p.1) with
    | some (formal, actual) => actual ++ expandFrom stop sub inStr (some c) (formal.length - 1) r
    | none => c :: expandFrom stop sub (inStr != isQuote prev c) (some c) 0 r

/-- Expansion of a macro text. -/
def expand (stop : Char → Bool) (sub : List (Str × Str)) (body : Str) : Str :=
  expandFrom stop sub false none 0 body

/-- The rule of the language: only identifier characters can continue an identifier. -/
def stopStd (c : Char) : Bool := isIdChar c

/-- The rule of the code: additionally no substitution in front of an opening bracket. -/
def stopCode (c : Char) : Bool := isIdChar c || isOpenBracket c

/-- Is there an unterminated string in the macro text? -/
def endsInString : Bool → Option Char → Str → Bool
  | inStr, _, [] => inStr
  | inStr, prev, c :: r => endsInString (inStr != isQuote prev c) (some c) r

/-- Values of formal parameters for given actual arguments: an argument that is omitted or empty gets the default
value if there is one, an empty one without default stays empty, an omitted one without default is an error. -/
def bindList : List Param → List Str → Option (List Str)
  | [], [] => some []
  | [], _ :: _ => none
  | p :: ps, [] => if p.hasDef then (bindList ps []).map (p.defVal :: ·) else none
  | p :: ps, a :: as =>
    (bindList ps as).map ((if a = [] ∧ p.hasDef then p.defVal else a) :: ·)

/-- `M()` for a macro whose first parameter has no default is a call with one empty argument. -/
def bindArgs (ps : List Param) (args : List Str) : Option (List Str) :=
  match ps, args with
  | p :: _, [] => if p.hasDef then bindList ps [] else bindList ps [[]]
  | _, _ => bindList ps args

end Verif.Spec
