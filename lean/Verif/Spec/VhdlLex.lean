import Verif.Vhdl.Token
/-!
# Lexical elements of VHDL (IEEE 1076-2008, chapter 15)

Independent of the lexer: which texts are lexical elements, where they have to be separated, and how a text is divided into
them.
-/
namespace Verif.Spec.Lrm
open Verif.Vhdl

/-! ## Characters (LRM 15.2) -/

def digit (c : Char) : Bool := '0' ≤ c && c ≤ '9'
/-- Letters of ISO 8859-1. -/
def letter (c : Char) : Bool := ('A' ≤ c && c ≤ 'Z') || ('a' ≤ c && c ≤ 'z') ||
  ('\u00c0' ≤ c && c ≤ '\u00ff' && c != '\u00d7' && c != '\u00f7')
/-- The characters which are part of words and numbers. -/
def wordChar (c : Char) : Bool := letter c || digit c || c == '_'
def graphic (c : Char) : Bool := (' ' ≤ c && c ≤ '~') || ('\u00a0' ≤ c && c ≤ '\u00ff')
/-- Format effectors that end a line: line feed, vertical tabulation, form feed, carriage return. -/
def lineEnd : List Char := ['\n', '\x0b', '\x0c', '\r']
/-- Separators (LRM 15.3). -/
def separator : List Char := [' ', '\u00a0', '\t'] ++ lineEnd

/-! ## Lexical elements -/

/-- `{ [ underline ] p }` -/
def groupTail (p : Char → Bool) : Str → Bool
  | [] => true
  | '_' :: c :: s => p c && groupTail p s
  | c :: s => p c && groupTail p s
/-- `p { [ underline ] p }` -/
def grouped (p : Char → Bool) : Str → Bool
  | [] => false
  | c :: s => p c && groupTail p s

/-- Text between delimiters `q`: inside, `q` is doubled. -/
def body (q : Char) (p : Char → Bool) : Str → Bool
  | [] => true
  | [c] => c != q && p c
  | c :: d :: s => if c == q then d == q && body q p s else p c && body q p (d :: s)

/-- Nothing or `P`. -/
def Opt (P : Str → Prop) (w : Str) : Prop := w = [] ∨ P w

/-- LRM 15.4.2. -/
def BasicId (w : Str) : Prop := ∃ c s, w = c :: s ∧ letter c = true ∧ groupTail (fun c => letter c || digit c) s = true
/-- LRM 15.4.3. -/
def ExtId (w : Str) : Prop := ∃ v, w = '\\' :: v ++ ['\\'] ∧ v ≠ [] ∧ body '\\' graphic v = true
/-- LRM 15.5.2: an exponent. -/
def Exponent (w : Str) : Prop := ∃ e s i, w = e :: (s ++ i) ∧ (e = 'e' ∨ e = 'E') ∧ (s = [] ∨ s = ['+'] ∨ s = ['-']) ∧ grouped digit i = true
/-- LRM 15.5.2. -/
def Decimal (w : Str) : Prop := ∃ i f x, w = i ++ (f ++ x) ∧ grouped digit i = true ∧
  Opt (fun f => ∃ j, f = '.' :: j ∧ grouped digit j = true) f ∧ Opt Exponent x
/-- LRM 15.5.3: an extended digit is a digit or a letter (of the first 128 characters: the base is at most sixteen). -/
def extDigit (c : Char) : Bool := digit c || ('A' ≤ c && c ≤ 'Z') || ('a' ≤ c && c ≤ 'z')
/-- LRM 15.5.3. -/
def Based (w : Str) : Prop := ∃ b i f x, w = b ++ '#' :: (i ++ (f ++ '#' :: x)) ∧ grouped digit b = true ∧ grouped extDigit i = true ∧
  Opt (fun f => ∃ j, f = '.' :: j ∧ grouped extDigit j = true) f ∧ Opt Exponent x
/-- LRM 15.6. -/
def CharLit (w : Str) : Prop := ∃ c, w = ['\'', c, '\''] ∧ graphic c = true
/-- LRM 15.7. -/
def StringLit (w : Str) : Prop := ∃ v, w = '"' :: v ++ ['"'] ∧ body '"' graphic v = true
/-- LRM 15.8. -/
def baseSpecifiers : List Str := [c! "b", c! "o", c! "x", c! "ub", c! "uo", c! "ux", c! "sb", c! "so", c! "sx", c! "d"]
/-- LRM 15.8; the characters of the value without quotation mark and backslash. -/
def BitString (w : Str) : Prop := ∃ n b v, w = n ++ (b ++ '"' :: (v ++ ['"'])) ∧ Opt (fun n => grouped digit n = true) n ∧
  b.map Char.toLower ∈ baseSpecifiers ∧ v.all (fun c => graphic c && c != '"' && c != '\\') = true

/-- LRM 15.10: the reserved words. -/
def reserved : List Str := [
  c! "abs", c! "access", c! "after", c! "alias", c! "all", c! "and", c! "architecture", c! "array", c! "assert", c! "assume",
  c! "assume_guarantee", c! "attribute", c! "begin", c! "block", c! "body", c! "buffer", c! "bus", c! "case", c! "component",
  c! "configuration", c! "constant", c! "context", c! "cover", c! "default", c! "disconnect", c! "downto", c! "else",
  c! "elsif", c! "end", c! "entity", c! "exit", c! "fairness", c! "file", c! "for", c! "force", c! "function", c! "generate",
  c! "generic", c! "group", c! "guarded", c! "if", c! "impure", c! "in", c! "inertial", c! "inout", c! "is", c! "label",
  c! "library", c! "linkage", c! "literal", c! "loop", c! "map", c! "mod", c! "nand", c! "new", c! "next", c! "nor", c! "not",
  c! "null", c! "of", c! "on", c! "open", c! "or", c! "others", c! "out", c! "package", c! "parameter", c! "port",
  c! "postponed", c! "procedure", c! "process", c! "property", c! "protected", c! "pure", c! "range", c! "record",
  c! "register", c! "reject", c! "release", c! "rem", c! "report", c! "restrict", c! "restrict_guarantee", c! "return",
  c! "rol", c! "ror", c! "select", c! "sequence", c! "severity", c! "shared", c! "signal", c! "sla", c! "sll", c! "sra",
  c! "srl", c! "strong", c! "subtype", c! "then", c! "to", c! "transport", c! "type", c! "unaffected", c! "units", c! "until",
  c! "use", c! "variable", c! "vmode", c! "vprop", c! "vunit", c! "wait", c! "when", c! "while", c! "with", c! "xnor",
  c! "xor"]
/-- The reserved word of each keyword token. -/
def word : Kw → Str
  | .ABS => c! "abs" | .ACCESS => c! "access" | .AFTER => c! "after" | .ALIAS => c! "alias" | .ALL => c! "all"
  | .AND => c! "and" | .ARCHITECTURE => c! "architecture" | .ARRAY => c! "array" | .ASSERT => c! "assert"
  | .ATTRIBUTE => c! "attribute" | .BEGIN => c! "begin" | .BLOCK => c! "block" | .BODY => c! "body" | .BUFFER => c! "buffer"
  | .BUS => c! "bus" | .CASE => c! "case" | .COMPONENT => c! "component" | .CONFIGURATION => c! "configuration"
  | .CONSTANT => c! "constant" | .CONTEXT => c! "context" | .DEFAULT => c! "default" | .DISCONNECT => c! "disconnect"
  | .DOWNTO => c! "downto" | .ELSE => c! "else" | .ELSIF => c! "elsif" | .END => c! "end" | .ENTITY => c! "entity"
  | .EXIT => c! "exit" | .FILE => c! "file" | .FOR => c! "for" | .FORCE => c! "force" | .FUNCTION => c! "function"
  | .GENERATE => c! "generate" | .GENERIC => c! "generic" | .GROUP => c! "group" | .GUARDED => c! "guarded" | .IF => c! "if"
  | .IMPURE => c! "impure" | .IN => c! "in" | .INERTIAL => c! "inertial" | .INOUT => c! "inout" | .IS => c! "is"
  | .LABEL => c! "label" | .LIBRARY => c! "library" | .LINKAGE => c! "linkage" | .LITERAL => c! "literal" | .LOOP => c! "loop"
  | .MAP => c! "map" | .MOD => c! "mod" | .NAND => c! "nand" | .NEW => c! "new" | .NEXT => c! "next" | .NOR => c! "nor"
  | .NOT => c! "not" | .NULL => c! "null" | .OF => c! "of" | .ON => c! "on" | .OPEN => c! "open" | .OR => c! "or"
  | .OTHERS => c! "others" | .OUT => c! "out" | .PACKAGE => c! "package" | .PARAMETER => c! "parameter" | .PORT => c! "port"
  | .POSTPONED => c! "postponed" | .PROCEDURE => c! "procedure" | .PROCESS => c! "process" | .PROPERTY => c! "property"
  | .PROTECTED => c! "protected" | .PURE => c! "pure" | .RANGE => c! "range" | .RECORD => c! "record"
  | .REGISTER => c! "register" | .REJECT => c! "reject" | .RELEASE => c! "release" | .REM => c! "rem" | .REPORT => c! "report"
  | .RETURN => c! "return" | .ROL => c! "rol" | .ROR => c! "ror" | .SELECT => c! "select" | .SEQUENCE => c! "sequence"
  | .SEVERITY => c! "severity" | .SHARED => c! "shared" | .SIGNAL => c! "signal" | .SLA => c! "sla" | .SLL => c! "sll"
  | .SRA => c! "sra" | .SRL => c! "srl" | .SUBTYPE => c! "subtype" | .THEN => c! "then" | .TO => c! "to"
  | .TRANSPORT => c! "transport" | .TYPE => c! "type" | .UNAFFECTED => c! "unaffected" | .UNITS => c! "units"
  | .UNTIL => c! "until" | .USE => c! "use" | .VARIABLE => c! "variable" | .VUNIT => c! "vunit" | .WAIT => c! "wait"
  | .WHEN => c! "when" | .WHILE => c! "while" | .WITH => c! "with" | .XNOR => c! "xnor" | .XOR => c! "xor"

/-- LRM 15.3: the delimiters (and `^`, LRM 8.7). -/
def delimiters : List (VT × Str) := [
  (.AMPERSAND, c! "&"), (.APOSTROPHE, c! "'"), (.LPAREN, c! "("), (.RPAREN, c! ")"), (.MUL, c! "*"), (.PLUS, c! "+"),
  (.COMMA, c! ","), (.MINUS, c! "-"), (.DOT, c! "."), (.DIV, c! "/"), (.COLON, c! ":"), (.SEMI, c! ";"), (.LT, c! "<"),
  (.EQ, c! "="), (.GT, c! ">"), (.GRAVE_ACCENT, c! "`"), (.BAR, c! "|"), (.LSQUARE_BR, c! "["), (.RSQUARE_BR, c! "]"),
  (.QUESTIONMARK, c! "?"), (.AT, c! "@"), (.UP, c! "^"), (.ARROW, c! "=>"), (.DOUBLESTAR, c! "**"), (.VARASGN, c! ":="),
  (.NE, c! "/="), (.GE, c! ">="), (.CONASGN, c! "<="), (.BOX, c! "<>"), (.COND_OP, c! "??"), (.EQ_MATCH, c! "?="),
  (.NE_MATCH, c! "?/="), (.LT_MATCH, c! "?<"), (.LE_MATCH, c! "?<="), (.GT_MATCH, c! "?>"), (.GE_MATCH, c! "?>="),
  (.SHIFT_LEFT, c! "<<"), (.SHIFT_RIGHT, c! ">>")]

/-- The text is a lexical element of the type. -/
def Element : VT → Str → Prop
  | .kw k, w => w.map Char.toLower = word k
  | .BASIC_IDENTIFIER, w => BasicId w ∧ w.map Char.toLower ∉ reserved
  | .EXTENDED_IDENTIFIER, w => ExtId w
  | .DECIMAL_LITERAL, w => Decimal w
  | .BASED_LITERAL, w => Based w
  | .CHARACTER_LITERAL, w => CharLit w
  | .STRING_LITERAL, w => StringLit w
  | .BIT_STRING_LITERAL, w => BitString w
  | t, w => (t, w) ∈ delimiters

/-- The text does not start with a character of the class. -/
def NotHead (p : Char → Bool) (s : Str) : Prop := ∀ c ∈ s.head?, p c = false

/-- LRM 15.3: what may stand directly behind an element. Words and numbers are separated from words and numbers; otherwise the element is
as long as possible. -/
def Apart : VT → Str → Str → Prop
  | .kw _, w, r => NotHead wordChar r ∧ (w.map Char.toLower ∈ baseSpecifiers → NotHead (· == '"') r)
  | .BASIC_IDENTIFIER, w, r => NotHead wordChar r ∧ (w.map Char.toLower ∈ baseSpecifiers → NotHead (· == '"') r)
  | .DECIMAL_LITERAL, _, r => NotHead wordChar r ∧ NotHead (· == '#') r ∧ ∀ c s, r = '.' :: c :: s → digit c = false
  | .BASED_LITERAL, _, r => NotHead wordChar r
  | .EXTENDED_IDENTIFIER, _, r => NotHead (· == '\\') r
  | .STRING_LITERAL, _, r => NotHead (· == '"') r
  | .CHARACTER_LITERAL, _, _ => True
  | .BIT_STRING_LITERAL, _, _ => True
  | _, w, r => (∀ d ∈ delimiters, d.2 <+: w ++ r → d.2.length ≤ w.length) ∧ ¬ ['-', '-'] <+: w ++ r ∧ ¬ ['/', '*'] <+: w ++ r

/-- Behind these an apostrophe belongs to an attribute or a qualified expression, anywhere else it starts a character literal. -/
def namelike : List VT := [.BASIC_IDENTIFIER, .EXTENDED_IDENTIFIER, .STRING_LITERAL, .CHARACTER_LITERAL, .RPAREN, .RSQUARE_BR, .kw .ALL,
  .kw .SUBTYPE]
/-- The meaning of an apostrophe fits to the token in front. -/
def Tick (p : Option VT) (t : VT) : Prop :=
  (t = .APOSTROPHE → ∃ q ∈ p, q ∈ namelike) ∧ (t = .CHARACTER_LITERAL → ∀ q ∈ p, q ∉ namelike)

/-- No `*/` inside. -/
def noBlockEnd : Str → Bool
  | '*' :: '/' :: _ => false
  | _ :: s => noBlockEnd s
  | [] => true

/-- Restrictions of a divided text: on separators, on what follows a line comment, on elements with what follows them. -/
structure Limits where
  sep : Char → Prop
  eol : Str → Prop
  elem : VT → Str → Str → Prop

/-- No restriction. -/
def Limits.none : Limits := ⟨fun _ => True, fun _ => True, fun _ _ _ => True⟩

/-- The restrictions under which the converter divides texts as the LRM: separators are space, tabulation, line feed and carriage return;
the line of a comment ends with a line feed or with carriage return and line feed; letters in identifiers are those of ASCII and
`Å`; extended identifiers have no quotation mark; in `'('x'` and in `x'y'` the apostrophes are not ambiguous for the lexer. -/
def Limits.supported : Limits where
  sep c := c ∈ [' ', '\t', '\n', '\r']
  eol s := s = [] ∨ (∃ r, s = '\n' :: r) ∨ ∃ r, s = '\r' :: '\n' :: r
  elem t w s := (t = .BASIC_IDENTIFIER → ∀ c ∈ w, c.toNat < 128 ∨ c = '\u00c5') ∧ (t = .EXTENDED_IDENTIFIER → '"' ∉ w) ∧
    (t = .CHARACTER_LITERAL → ¬ (w = ['\'', '(', '\''] ∧ s[1]? = some '\'')) ∧
    (t = .APOSTROPHE → s[1]? = some '\'' → s[0]? = some '(' ∧ s[3]? = some '\'')

/-- A text is divided into lexical elements (LRM 15.3, 15.9). `p` is the element in front. -/
inductive Divided (R : Limits) : Option VT → Str → List (VT × Str) → Prop
  | nil {p : Option VT} : Divided R p [] []
  | sep {p : Option VT} {c : Char} {s : Str} {ts : List (VT × Str)} (hc : c ∈ separator) (hr : R.sep c) (h : Divided R p s ts) :
      Divided R p (c :: s) ts
  | line {p : Option VT} {w s : Str} {ts : List (VT × Str)} (hw : ∀ c ∈ w, c ∉ lineEnd) (hs : ∀ c ∈ s.head?, c ∈ lineEnd) (hr : R.eol s)
      (h : Divided R p s ts) : Divided R p ('-' :: '-' :: (w ++ s)) ts
  | block {p : Option VT} {w s : Str} {ts : List (VT × Str)} (hw : noBlockEnd w = true) (h : Divided R p s ts) :
      Divided R p ('/' :: '*' :: (w ++ '*' :: '/' :: s)) ts
  | elem {p : Option VT} {t : VT} {w s : Str} {ts : List (VT × Str)} (ht : Element t w) (ha : Apart t w s) (hp : Tick p t) (hr : R.elem t w s)
      (h : Divided R (some t) s ts) : Divided R p (w ++ s) ((t, w) :: ts)

/-- The bytes of a text in UTF-8 (one `Char` per byte). -/
def bytes (w : Str) : Str := (String.ofList w).toByteArray.data.toList.map fun b => Char.ofNat b.toNat
/-- The token of an element. -/
def tokenOf (x : VT × Str) : VTok := ⟨x.1, bytes x.2⟩

/-! ## What every token is -/

/-- Reserved words of the property specification language, which are reserved in VHDL-2008. -/
def psl : List Str := [c! "assume", c! "assume_guarantee", c! "cover", c! "fairness", c! "restrict", c! "restrict_guarantee", c! "strong",
  c! "vmode", c! "vprop"]
/-- Single characters that are no lexical elements. -/
def strays : List (VT × Str) := [(.DBLQUOTE, ['"']), (.UNDERSCORE, ['_']), (.HASHTAG, ['#']), (.BACKSLASH, ['\\'])]

/-- A text consists of lexical elements (or words of the property specification language as identifiers, or stray characters), white
space and comments. -/
inductive Covered : Str → List (VT × Str) → Prop
  | nil : Covered [] []
  | blank {c : Char} {s : Str} {ts : List (VT × Str)} (hc : c ∈ [' ', '\t', '\n', '\r']) (h : Covered s ts) : Covered (c :: s) ts
  | line {w s : Str} {ts : List (VT × Str)} (hw : '\n' ∉ w) (hs : ∀ c ∈ s.head?, c = '\n') (h : Covered s ts) : Covered ('-' :: '-' :: (w ++ s)) ts
  | block {w s : Str} {ts : List (VT × Str)} (hw : noBlockEnd w = true) (h : Covered s ts) : Covered ('/' :: '*' :: (w ++ '*' :: '/' :: s)) ts
  | elem {t : VT} {w s : Str} {ts : List (VT × Str)} (hw : Element t w ∨ (t = .BASIC_IDENTIFIER ∧ BasicId w ∧ w.map Char.toLower ∈ psl) ∨ (t, w) ∈ strays)
      (h : Covered s ts) : Covered (w ++ s) ((t, w) :: ts)

end Verif.Spec.Lrm
