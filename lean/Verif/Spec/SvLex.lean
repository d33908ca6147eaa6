import Verif.Sv.LexToken
import Verif.Spec.VhdlLex
/-!
# Lexical elements of SystemVerilog and Verilog (IEEE 1800-2017, chapter 5, 22.14, annex A and B)

Independent of the lexer: which texts are lexical elements, and how a text is divided into them. Reserved words and operators depend on
the version of the language, the other elements are those of 1800-2017. Operators that the syntax puts together from others
(`.*`, `(*`, `*)`, `+:`, `-:`, `:/`, `[*`, `[->`, `[=`) are no elements of their own.
-/
namespace Verif.Spec.SvLex
open Verif.Sv

/-! ## Versions and their reserved words (22.14) -/

/-- The versions, named as for `` `begin_keywords`` (1800-2017, 22.14). -/
inductive Version
  | v1995 | v2001 | v2001noconfig | v2005 | sv2005 | sv2009 | sv2012 | sv2017
deriving DecidableEq, Repr
def Version.all : List Version := [.v1995, .v2001, .v2001noconfig, .v2005, .sv2005, .sv2009, .sv2012, .sv2017]
/-- The number of the version in the API (`enum Language`). -/
def Version.code : Version → Nat
  | .v1995 => 1 | .v2001 => 2 | .v2001noconfig => 3 | .v2005 => 4 | .sv2005 => 5 | .sv2009 => 6 | .sv2012 => 7 | .sv2017 => 8

/-- Table 22-1. -/
def words1995 : List Str := [
  c! "always", c! "and", c! "assign", c! "begin", c! "buf", c! "bufif0", c! "bufif1", c! "case", c! "casex", c!
  "casez", c! "cmos", c! "deassign", c! "default", c! "defparam", c! "disable", c! "edge", c! "else", c! "end", c!
  "endcase", c! "endfunction", c! "endmodule", c! "endprimitive", c! "endspecify", c! "endtable", c! "endtask", c!
  "event", c! "for", c! "force", c! "forever", c! "fork", c! "function", c! "highz0", c! "highz1", c! "if", c!
  "ifnone", c! "initial", c! "inout", c! "input", c! "integer", c! "join", c! "large", c! "macromodule", c! "medium",
  c! "module", c! "nand", c! "negedge", c! "nmos", c! "nor", c! "not", c! "notif0", c! "notif1", c! "or", c! "output",
  c! "parameter", c! "pmos", c! "posedge", c! "primitive", c! "pull0", c! "pull1", c! "pulldown", c! "pullup", c!
  "rcmos", c! "real", c! "realtime", c! "reg", c! "release", c! "repeat", c! "rnmos", c! "rpmos", c! "rtran", c!
  "rtranif0", c! "rtranif1", c! "scalared", c! "small", c! "specify", c! "specparam", c! "strong0", c! "strong1", c!
  "supply0", c! "supply1", c! "table", c! "task", c! "time", c! "tran", c! "tranif0", c! "tranif1", c! "tri", c!
  "tri0", c! "tri1", c! "triand", c! "trior", c! "trireg", c! "vectored", c! "wait", c! "wand", c! "weak0", c!
  "weak1", c! "while", c! "wire", c! "wor", c! "xnor", c! "xor"]
/-- Table 22-2 without the words for configurations. -/
def words2001 : List Str := [
  c! "automatic", c! "endgenerate", c! "generate", c! "genvar", c! "localparam", c! "noshowcancelled", c!
  "pulsestyle_ondetect", c! "pulsestyle_onevent", c! "showcancelled", c! "signed", c! "unsigned"]
/-- The words of table 22-2 that 1364-2001-noconfig does not reserve. -/
def wordsConfig : List Str := [
  c! "cell", c! "config", c! "design", c! "endconfig", c! "incdir", c! "include", c! "instance", c! "liblist", c!
  "library", c! "use"]
/-- Table 22-3. -/
def words2005 : List Str := [c! "uwire"]
/-- Table 22-4. -/
def wordsSv2005 : List Str := [
  c! "alias", c! "always_comb", c! "always_ff", c! "always_latch", c! "assert", c! "assume", c! "before", c! "bind",
  c! "bins", c! "binsof", c! "bit", c! "break", c! "byte", c! "chandle", c! "class", c! "clocking", c! "const", c!
  "constraint", c! "context", c! "continue", c! "cover", c! "covergroup", c! "coverpoint", c! "cross", c! "dist", c!
  "do", c! "endclass", c! "endclocking", c! "endgroup", c! "endinterface", c! "endpackage", c! "endprogram", c!
  "endproperty", c! "endsequence", c! "enum", c! "expect", c! "export", c! "extends", c! "extern", c! "final", c!
  "first_match", c! "foreach", c! "forkjoin", c! "iff", c! "ignore_bins", c! "illegal_bins", c! "import", c! "inside",
  c! "int", c! "interface", c! "intersect", c! "join_any", c! "join_none", c! "local", c! "logic", c! "longint", c!
  "matches", c! "modport", c! "new", c! "null", c! "package", c! "packed", c! "priority", c! "program", c! "property",
  c! "protected", c! "pure", c! "rand", c! "randc", c! "randcase", c! "randsequence", c! "ref", c! "return", c!
  "sequence", c! "shortint", c! "shortreal", c! "solve", c! "static", c! "string", c! "struct", c! "super", c!
  "tagged", c! "this", c! "throughout", c! "timeprecision", c! "timeunit", c! "type", c! "typedef", c! "union", c!
  "unique", c! "var", c! "virtual", c! "void", c! "wait_order", c! "wildcard", c! "with", c! "within"]
/-- Table 22-5. -/
def wordsSv2009 : List Str := [
  c! "accept_on", c! "checker", c! "endchecker", c! "eventually", c! "global", c! "implies", c! "let", c! "nexttime",
  c! "reject_on", c! "restrict", c! "s_always", c! "s_eventually", c! "s_nexttime", c! "s_until", c! "s_until_with",
  c! "strong", c! "sync_accept_on", c! "sync_reject_on", c! "unique0", c! "until", c! "until_with", c! "untyped", c!
  "weak"]
/-- Table 22-6. -/
def wordsSv2012 : List Str := [
  c! "implements", c! "interconnect", c! "nettype", c! "soft"]

/-- The reserved words of a version. -/
def reserved : Version → List Str
  | .v1995 => words1995
  | .v2001 => words1995 ++ words2001 ++ wordsConfig
  | .v2001noconfig => words1995 ++ words2001
  | .v2005 => words1995 ++ words2001 ++ wordsConfig ++ words2005
  | .sv2005 => words1995 ++ words2001 ++ wordsConfig ++ words2005 ++ wordsSv2005
  | .sv2009 => words1995 ++ words2001 ++ wordsConfig ++ words2005 ++ wordsSv2005 ++ wordsSv2009
  | .sv2012 => words1995 ++ words2001 ++ wordsConfig ++ words2005 ++ wordsSv2005 ++ wordsSv2009 ++ wordsSv2012
  | .sv2017 => words1995 ++ words2001 ++ wordsConfig ++ words2005 ++ wordsSv2005 ++ wordsSv2009 ++ wordsSv2012

/-- Words which the syntax in annex A mentions although they are not reserved: their tokens are told apart from other names. -/
def special : List Str := [
  c! "sample", c! "option", c! "type_option", c! "std", c! "randomize", c! "1step", c! "PATHPULSE$", c! "$error", c!
  "$fatal", c! "$fullskew", c! "$hold", c! "$info", c! "$nochange", c! "$period", c! "$recovery", c! "$recrem", c!
  "$removal", c! "$root", c! "$setup", c! "$setuphold", c! "$skew", c! "$timeskew", c! "$unit", c! "$warning", c!
  "$width"]

/-! ## Operators and punctuation -/

def symbols1995 : List Str := [
  c! ";", c! "(", c! ")", c! "[", c! "]", c! "{", c! "}", c! "%", c! "!", c! "~", c! "~&", c! "~|", c! "^", c! "~^",
  c! "^~", c! ",", c! ".", c! "?", c! ":", c! "==", c! "!=", c! "===", c! "!==", c! "=", c! "<", c! ">", c! ">=", c!
  "<=", c! "+", c! "-", c! "&", c! "&&", c! "|", c! "||", c! "*", c! "/", c! "->", c! "<<", c! ">>", c! "=>", c!
  "+=>", c! "-=>", c! "*>", c! "@", c! "#", c! "&&&"]
def symbols2001 : List Str := [
  c! "**", c! "<<<", c! ">>>"]
def symbolsSv2005 : List Str := [
  c! "'", c! "'{", c! "$", c! "::", c! "==?", c! "!=?", c! "+=", c! "-=", c! "*=", c! "/=", c! "%=", c! "&=", c! "|=",
  c! "^=", c! "<<=", c! ">>=", c! "<<<=", c! ">>>=", c! "->>", c! "++", c! "--", c! ":=", c! "|->", c! "|=>", c! "@@",
  c! "##"]
def symbolsSv2009 : List Str := [
  c! "<->", c! "#-#", c! "#=#"]
/-- All symbols of 1800-2017. -/
def allSymbols : List Str := symbols1995 ++ symbols2001 ++ symbolsSv2005 ++ symbolsSv2009
/-- The symbols of a version. -/
def symbols : Version → List Str
  | .v1995 => symbols1995
  | .v2001 => symbols1995 ++ symbols2001
  | .v2001noconfig => symbols1995 ++ symbols2001
  | .v2005 => symbols1995 ++ symbols2001
  | .sv2005 => symbols1995 ++ symbols2001 ++ symbolsSv2005
  | .sv2009 => allSymbols
  | .sv2012 => allSymbols
  | .sv2017 => allSymbols

/-! ## Characters -/

def digit (c : Char) : Bool := '0' ≤ c && c ≤ '9'
def letter (c : Char) : Bool := ('a' ≤ c && c ≤ 'z') || ('A' ≤ c && c ≤ 'Z')
/-- White space (5.3). -/
def white (c : Char) : Bool := [' ', '\t', '\n', '\r', '\x0c'].contains c
def printable (c : Char) : Bool := '!' ≤ c && c ≤ '~'
def xz (c : Char) : Bool := ['x', 'X', 'z', 'Z', '?'].contains c
def binDigit (c : Char) : Bool := xz c || ['0', '1'].contains c
def octDigit (c : Char) : Bool := xz c || ('0' ≤ c && c ≤ '7')
def hex (c : Char) : Bool := digit c || ('a' ≤ c && c ≤ 'f') || ('A' ≤ c && c ≤ 'F')
def hexDigit (c : Char) : Bool := xz c || hex c

/-! ## Numbers (5.7, A.8.7) -/

/-- `p { _ | p }` -/
def figures (p : Char → Bool) : Str → Bool
  | [] => false
  | c :: s => p c && s.all fun c => p c || c == '_'
def Fixed (w : Str) : Prop := ∃ i f, w = i ++ '.' :: f ∧ figures digit i = true ∧ figures digit f = true
/-- `unsigned_number [ . unsigned_number ] exp [ sign ] unsigned_number` -/
def Real (w : Str) : Prop := ∃ m e g x, w = m ++ e :: (g ++ x) ∧ (figures digit m = true ∨ Fixed m) ∧ (e = 'e' ∨ e = 'E') ∧
  (g = [] ∨ g = ['+'] ∨ g = ['-']) ∧ figures digit x = true
def units : List Str := [c! "s", c! "ms", c! "us", c! "ns", c! "ps", c! "fs"]
/-- `time_literal` (A.8.4) -/
def Time (w : Str) : Prop := ∃ m u, w = m ++ u ∧ (figures digit m = true ∨ Fixed m) ∧ u ∈ units
/-- The digits behind the base with the letter `b`. -/
def Value (b : Char) (n : Str) : Prop :=
  ((b = 'd' ∨ b = 'D') ∧ (figures digit n = true ∨ ∃ c us, n = c :: us ∧ xz c = true ∧ us.all (· == '_') = true)) ∨
  ((b = 'b' ∨ b = 'B') ∧ figures binDigit n = true) ∨ ((b = 'o' ∨ b = 'O') ∧ figures octDigit n = true) ∨ ((b = 'h' ∨ b = 'H') ∧ figures hexDigit n = true)
/-- A base with the digits behind it: between them may be white space, between the apostrophe and the letter not (5.7.1). -/
def Based (w : Str) : Prop := ∃ g b ws n, w = '\'' :: (g ++ b :: (ws ++ n)) ∧ (g = [] ∨ g = ['s'] ∨ g = ['S']) ∧ ws.all white = true ∧ Value b n
/-- The same with a size in front. -/
def Sized (w : Str) : Prop := ∃ n b, w = n ++ b ∧ figures digit n = true ∧ Based b
def unbased : List Str := [c! "'0", c! "'1", c! "'x", c! "'X", c! "'z", c! "'Z"]

/-! ## Strings (5.9), names (5.6) -/

/-- The text between the quotation marks: a backslash may stand in front of any character, also of the end of the line. -/
def strBody : Str → Bool
  | [] => true
  | '\\' :: '\r' :: '\n' :: s => strBody s
  | '\\' :: c :: s => c != '\r' && strBody s
  | c :: s => !['"', '\\', '\r', '\n'].contains c && strBody s
def StringLit (w : Str) : Prop := ∃ v, w = '"' :: v ++ ['"'] ∧ strBody v = true
def identStart (c : Char) : Bool := letter c || c == '_'
def identChar (c : Char) : Bool := letter c || digit c || c == '_' || c == '$'
/-- `simple_identifier` as a text, also if it is reserved -/
def Ident (w : Str) : Prop := ∃ c s, w = c :: s ∧ identStart c = true ∧ s.all identChar = true
/-- `escaped_identifier` with the white space behind it -/
def Escaped (w : Str) : Prop := ∃ n ws, w = '\\' :: (n ++ ws) ∧ n.all printable = true ∧ ws ≠ [] ∧ ws.all white = true
/-- `system_tf_identifier` as a text -/
def System (w : Str) : Prop := ∃ s, w = '$' :: s ∧ s ≠ [] ∧ s.all identChar = true

/-! ## Elements -/

/-- The elements outside of the tables of primitives. -/
def Plain (v : Version) : LTy → Str → Prop
  | .kw s, w => w = s ∧ (s ∈ reserved v ∨ s ∈ special)
  | .sym s, w => w = s ∧ s ∈ symbols v
  | .C_IDENTIFIER, w => Ident w ∧ '$' ∉ w ∧ w ∉ reserved v ∧ w ∉ special
  | .SIMPLE_IDENTIFIER, w => Ident w ∧ '$' ∈ w ∧ w ∉ reserved v ∧ w ∉ special
  | .ESCAPED_IDENTIFIER, w => Escaped w
  | .SYSTEM_TF_IDENTIFIER, w => System w ∧ w ∉ special
  | .UNSIGNED_NUMBER, w => figures digit w = true
  | .FIXED_POINT_NUMBER, w => Fixed w
  | .REAL_NUMBER_WITH_EXP, w => Real w
  | .TIME_LITERAL, w => Time w
  | .ANY_BASED_NUMBER, w => Based w
  | .BASED_NUMBER_WITH_SIZE, w => Sized w
  | .UNBASED_UNSIZED_LITERAL, w => w ∈ unbased
  | .STRING_LITERAL, w => StringLit w
  | _, _ => False

/-- The elements in tables of primitives (A.5.3), `endtable` ends the table. -/
def InTable : LTy → Str → Prop
  | .LEVEL_SYMBOL, w => ∃ c, w = [c] ∧ c ∈ ['0', '1', 'x', 'X', '?', 'b', 'B']
  | .EDGE_SYMBOL, w => ∃ c, w = [c] ∧ c ∈ ['r', 'R', 'f', 'F', 'p', 'P', 'n', 'N', '*']
  | .sym s, w => w = s ∧ s ∈ [c! "(", c! ")", c! ":", c! ";", c! "-"]
  | .kw s, w => w = s ∧ s = c! "endtable"
  | _, _ => False

/-- The text is a lexical element of the type; `m`: in a table. -/
def Element (v : Version) (m : Bool) (t : LTy) (w : Str) : Prop := if m = true then InTable t w else Plain v t w
/-- Is the text behind an element in a table. -/
def tableAfter (m : Bool) (t : LTy) : Bool := (t == .kw (c! "table")) || (m && t != .kw (c! "endtable"))

/-- `r` may stand behind the element `w`: the element is as long as possible, and it does not start a comment. -/
def Apart (v : Version) (m : Bool) (w r : Str) : Prop := (∀ t u, Element v m t u → u <+: w ++ r → u.length ≤ w.length) ∧
  ¬ ['/', '/'] <+: w ++ r ∧ ¬ ['/', '*'] <+: w ++ r

/-! ## Divided texts -/

/-- Restrictions of a divided text: on white space, on elements with what follows them, on an escaped identifier at the end of the text. -/
structure Limits where
  sep : Bool → Char → Prop
  elem : Version → Bool → LTy → Str → Str → Prop
  eof : Prop

/-- No restriction. -/
def Limits.none : Limits := ⟨fun _ _ => True, fun _ _ _ _ _ => True, True⟩

/-- The characters the converter knows behind a backslash in a string (and the end of the line). -/
def knownEscapes : List Char := ['a', 'b', 'e', 'f', 'n', 'r', 't', 'v', '$', '@', 'l', 'u', 'L', 'E', 'Q', 'U', '\\', '"', '%', '\n',
  '0', '1', '2', '3', '4', '5', '6', '7', '8', '9']
/-- All escape sequences in the text of a string are known. -/
def known : Str → Bool
  | [] => true
  | '\\' :: '\r' :: '\n' :: s => known s
  | '\\' :: 'x' :: c :: s => hex c && known s
  | '\\' :: c :: s => knownEscapes.contains c && known s
  | c :: s => c != '\\' && known s
/-- White space or the letter `s`. -/
def loose (c : Char) : Bool := white c || c == 's' || c == 'S'
/-- The words the converter reserves differently. -/
def disagree : Version → List Str
  | .v2001 => [c! "incdir", c! "include", c! "library"]
  | .v2005 => [c! "incdir", c! "include", c! "library"]
  | .v2001noconfig => [c! "cell", c! "config", c! "design", c! "endconfig", c! "instance", c! "liblist", c! "use"]
  | _ => []

/-- The restrictions under which the converter divides texts as the LRM: no form feed in tables; only known escape sequences in strings; no
white space and no `s` behind an apostrophe that is no part of a number; no `[` directly behind `edge`; none of the words which are
reserved differently; in old versions nothing that could be an operator of a later version; white space behind escaped identifiers. -/
def Limits.supported : Limits where
  sep m c := m = true → c ≠ '\x0c'
  elem v m t w r := m = false →
    (t = .STRING_LITERAL → ∀ b, w = '"' :: b ++ ['"'] → known b = true) ∧
    (t = .sym (c! "'") → Lrm.NotHead loose r) ∧
    (t = .UNSIGNED_NUMBER → ∀ c s, r = '\'' :: c :: s → loose c = false) ∧
    (t = .kw (c! "edge") → Lrm.NotHead (· == '[') r) ∧
    w ∉ disagree v ∧
    (∀ d ∈ allSymbols, t = .sym w → d <+: w ++ r → d.length ≤ w.length)
  eof := False

/-- A text is divided into lexical elements; `m`: the text starts in a table. -/
inductive Divided (R : Limits) (v : Version) : Bool → Str → List (LTy × Str) → Prop
  | nil {m : Bool} : Divided R v m [] []
  | sep {m : Bool} {c : Char} {s : Str} {ts : List (LTy × Str)} (hc : white c = true) (hr : R.sep m c) (h : Divided R v m s ts) :
      Divided R v m (c :: s) ts
  | line {m : Bool} {w s : Str} {ts : List (LTy × Str)} (hw : '\n' ∉ w) (h : Divided R v m s ts) : Divided R v m ('/' :: '/' :: (w ++ '\n' :: s)) ts
  | lineEnd {m : Bool} {w : Str} (hw : '\n' ∉ w) : Divided R v m ('/' :: '/' :: w) []
  | block {m : Bool} {w s : Str} {ts : List (LTy × Str)} (hw : Lrm.noBlockEnd w = true) (h : Divided R v m s ts) :
      Divided R v m ('/' :: '*' :: (w ++ '*' :: '/' :: s)) ts
  | elem {m : Bool} {t : LTy} {w s : Str} {ts : List (LTy × Str)} (ht : Element v m t w) (ha : Apart v m w s) (hr : R.elem v m t w s)
      (h : Divided R v (tableAfter m t) s ts) : Divided R v m (w ++ s) ((t, w) :: ts)
  | escEnd {n : Str} (hn : n.all printable = true) (hr : R.eof) : Divided R v false ('\\' :: n) [(.ESCAPED_IDENTIFIER, '\\' :: n)]

/-- The token of an element. -/
def tokenOf (x : LTy × Str) : LTok := ⟨x.1, Lrm.bytes x.2⟩

/-! ## What every token is -/

/-- A base with the digits behind it and white space everywhere between. -/
def LooseBased (w : Str) : Prop := ∃ w1 g w2 b w3 n, w = '\'' :: (w1 ++ (g ++ (w2 ++ b :: (w3 ++ n)))) ∧ (g = [] ∨ g = ['s'] ∨ g = ['S']) ∧
  w1.all white = true ∧ w2.all white = true ∧ w3.all white = true ∧ Value b n
/-- `edge_descriptor` (A.7.5.3) -/
def EdgeDescriptor (w : Str) : Prop := ∃ a b, w = [a, b] ∧ ((a ∈ ['x', 'X', 'z', 'Z'] ∧ b ∈ ['0', '1']) ∨ (a ∈ ['0', '1'] ∧ b ∈ ['x', 'X', 'z', 'Z']) ∨
  (a = '0' ∧ b = '1') ∨ (a = '1' ∧ b = '0'))
/-- `edge_control_specifier` without white space -/
def EdgeControl (w : Str) : Prop := ∃ (d : Str) (ds : List Str), w = c! "edge[" ++ (d ++ ((ds.map fun x => ',' :: x).flatten ++ [']'])) ∧ EdgeDescriptor d ∧ ∀ x ∈ ds, EdgeDescriptor x

/-- Tokens which are no lexical elements of the version: numbers with white space behind the apostrophe, `edge[..]` as one token, a lone
backslash, symbols of later versions, and words which are reserved differently. -/
def Deviation (v : Version) : LTy → Str → Prop
  | .ANY_BASED_NUMBER, w => LooseBased w
  | .BASED_NUMBER_WITH_SIZE, w => ∃ n b, w = n ++ b ∧ figures digit n = true ∧ LooseBased b
  | .EDGE_CONTROL_SPECIFIER, w => EdgeControl w
  | .sym s, w => w = s ∧ (s = ['\\'] ∨ s ∈ allSymbols)
  | .C_IDENTIFIER, w => w ∈ disagree v
  | .kw s, w => w = s ∧ s ∈ disagree v
  | _, _ => False

/-- A text consists of lexical elements (or deviations), white space and comments. -/
inductive Covered (v : Version) : Bool → Str → List (LTy × Str) → Prop
  | nil {m : Bool} : Covered v m [] []
  | blank {m : Bool} {c : Char} {s : Str} {ts : List (LTy × Str)} (hc : white c = true) (h : Covered v m s ts) : Covered v m (c :: s) ts
  | line {m : Bool} {w s : Str} {ts : List (LTy × Str)} (hw : '\n' ∉ w) (h : Covered v m s ts) : Covered v m ('/' :: '/' :: (w ++ '\n' :: s)) ts
  | lineEnd {m : Bool} {w : Str} (hw : '\n' ∉ w) : Covered v m ('/' :: '/' :: w) []
  | block {m : Bool} {w s : Str} {ts : List (LTy × Str)} (hw : Lrm.noBlockEnd w = true) (h : Covered v m s ts) :
      Covered v m ('/' :: '*' :: (w ++ '*' :: '/' :: s)) ts
  | elem {m : Bool} {t : LTy} {w s : Str} {ts : List (LTy × Str)} (hw : Element v m t w ∨ (m = false ∧ Deviation v t w))
      (h : Covered v (tableAfter m t) s ts) : Covered v m (w ++ s) ((t, w) :: ts)

/-! ## Token types of the rules for expressions and statements -/

/-- The token types of symbols. -/
def symText : ST → Option Str
  | .DOLAR => some (c! "$") | .LPAREN => some (c! "(") | .RPAREN => some (c! ")") | .LSQUARE_BR => some (c! "[")
  | .RSQUARE_BR => some (c! "]") | .LBRACE => some (c! "{") | .RBRACE => some (c! "}") | .APOSTROPHE => some (c! "'")
  | .APOSTROPHE_LBRACE => some (c! "'{") | .COMMA => some (c! ",") | .DOT => some (c! ".") | .COLON => some (c! ":")
  | .DOUBLE_COLON => some (c! "::") | .SEMI => some (c! ";") | .HASH => some (c! "#") | .AT => some (c! "@")
  | .QUESTIONMARK => some (c! "?") | .PLUS => some (c! "+") | .MINUS => some (c! "-") | .NOT => some (c! "!") | .NEG => some (c! "~")
  | .AMPERSAND => some (c! "&") | .NAND => some (c! "~&") | .BAR => some (c! "|") | .NOR => some (c! "~|") | .XOR => some (c! "^")
  | .NXOR => some (c! "~^") | .XORN => some (c! "^~") | .INCR => some (c! "++") | .DECR => some (c! "--") | .DOUBLESTAR => some (c! "**")
  | .MUL => some (c! "*") | .DIV => some (c! "/") | .MOD => some (c! "%") | .SHIFT_LEFT => some (c! "<<")
  | .SHIFT_RIGHT => some (c! ">>") | .ARITH_SHIFT_LEFT => some (c! "<<<") | .ARITH_SHIFT_RIGHT => some (c! ">>>") | .LT => some (c! "<")
  | .LE => some (c! "<=") | .GT => some (c! ">") | .GE => some (c! ">=") | .EQ => some (c! "==") | .NE => some (c! "!=")
  | .CASE_EQ => some (c! "===") | .CASE_NE => some (c! "!==") | .WILDCARD_EQ => some (c! "==?") | .WILDCARD_NE => some (c! "!=?")
  | .AND_LOG => some (c! "&&") | .OR_LOG => some (c! "||") | .TRIPLE_AND => some (c! "&&&") | .ARROW => some (c! "->")
  | .BI_DIR_ARROW => some (c! "<->") | .ASSIGN => some (c! "=") | .PLUS_ASSIGN => some (c! "+=") | .MINUS_ASSIGN => some (c! "-=")
  | .MUL_ASSIGN => some (c! "*=") | .DIV_ASSIGN => some (c! "/=") | .MOD_ASSIGN => some (c! "%=") | .AND_ASSIGN => some (c! "&=")
  | .OR_ASSIGN => some (c! "|=") | .XOR_ASSIGN => some (c! "^=") | .SHIFT_LEFT_ASSIGN => some (c! "<<=")
  | .SHIFT_RIGHT_ASSIGN => some (c! ">>=") | .ARITH_SHIFT_LEFT_ASSIGN => some (c! "<<<=") | .ARITH_SHIFT_RIGHT_ASSIGN => some (c! ">>>=")
  | .DOUBLE_HASH => some (c! "##") | .DOUBLE_RIGHT_ARROW => some (c! "->>")
  | _ => none
/-- The token types of keywords. -/
def kwText : ST → Option Str
  | .KW_SAMPLE => some (c! "sample") | .KW_RANDOMIZE => some (c! "randomize") | .KW_TYPE_OPTION => some (c! "type_option")
  | .KW_OPTION => some (c! "option") | .KW_STD => some (c! "std") | .KW_NULL => some (c! "null") | .KW_THIS => some (c! "this")
  | .KW_SUPER => some (c! "super") | .KW_LOCAL => some (c! "local") | .KW_DOLAR_SETUPHOLD => some (c! "$setuphold")
  | .KW_DOLAR_SETUP => some (c! "$setup") | .KW_DOLAR_FULLSKEW => some (c! "$fullskew") | .KW_DOLAR_WARNING => some (c! "$warning")
  | .KW_DOLAR_WIDTH => some (c! "$width") | .KW_DOLAR_ROOT => some (c! "$root") | .KW_DOLAR_RECOVERY => some (c! "$recovery")
  | .KW_DOLAR_SKEW => some (c! "$skew") | .KW_DOLAR_FATAL => some (c! "$fatal") | .KW_DOLAR_REMOVAL => some (c! "$removal")
  | .KW_DOLAR_RECREM => some (c! "$recrem") | .KW_DOLAR_ERROR => some (c! "$error") | .KW_DOLAR_PERIOD => some (c! "$period")
  | .KW_DOLAR_HOLD => some (c! "$hold") | .KW_DOLAR_INFO => some (c! "$info") | .KW_DOLAR_UNIT => some (c! "$unit")
  | .KW_DOLAR_TIMESKEW => some (c! "$timeskew") | .KW_DOLAR_NOCHANGE => some (c! "$nochange") | .KW_BIT => some (c! "bit")
  | .KW_LOGIC => some (c! "logic") | .KW_REG => some (c! "reg") | .KW_BYTE => some (c! "byte") | .KW_SHORTINT => some (c! "shortint")
  | .KW_INT => some (c! "int") | .KW_LONGINT => some (c! "longint") | .KW_INTEGER => some (c! "integer") | .KW_TIME => some (c! "time")
  | .KW_SHORTREAL => some (c! "shortreal") | .KW_REAL => some (c! "real") | .KW_REALTIME => some (c! "realtime")
  | .KW_SIGNED => some (c! "signed") | .KW_UNSIGNED => some (c! "unsigned") | .KW_STRING => some (c! "string")
  | .KW_CONST => some (c! "const") | .KW_CHANDLE => some (c! "chandle") | .KW_VIRTUAL => some (c! "virtual")
  | .KW_INTERFACE => some (c! "interface") | .KW_EVENT => some (c! "event") | .KW_ENUM => some (c! "enum")
  | .KW_STRUCT => some (c! "struct") | .KW_UNION => some (c! "union") | .KW_TYPE => some (c! "type") | .KW_DEFAULT => some (c! "default")
  | .KW_TAGGED => some (c! "tagged") | .KW_MATCHES => some (c! "matches") | .KW_INSIDE => some (c! "inside")
  | .KW_WITH => some (c! "with") | .KW_UNIQUE => some (c! "unique") | .KW_AND => some (c! "and") | .KW_OR => some (c! "or")
  | .KW_XOR => some (c! "xor") | .KW_POSEDGE => some (c! "posedge") | .KW_NEGEDGE => some (c! "negedge") | .KW_EDGE => some (c! "edge")
  | .KW_IFF => some (c! "iff")
  | .KW_IF => some (c! "if") | .KW_ELSE => some (c! "else") | .KW_BEGIN => some (c! "begin") | .KW_END => some (c! "end")
  | .KW_FORK => some (c! "fork") | .KW_JOIN => some (c! "join") | .KW_JOIN_ANY => some (c! "join_any")
  | .KW_JOIN_NONE => some (c! "join_none") | .KW_CASE => some (c! "case") | .KW_CASEZ => some (c! "casez")
  | .KW_CASEX => some (c! "casex") | .KW_ENDCASE => some (c! "endcase") | .KW_FOR => some (c! "for")
  | .KW_FOREVER => some (c! "forever") | .KW_FOREACH => some (c! "foreach") | .KW_REPEAT => some (c! "repeat")
  | .KW_WHILE => some (c! "while") | .KW_DO => some (c! "do") | .KW_RETURN => some (c! "return") | .KW_BREAK => some (c! "break")
  | .KW_CONTINUE => some (c! "continue") | .KW_VOID => some (c! "void") | .KW_DISABLE => some (c! "disable")
  | .KW_WAIT => some (c! "wait") | .KW_WAIT_ORDER => some (c! "wait_order") | .KW_RANDCASE => some (c! "randcase")
  | .KW_ASSIGN => some (c! "assign") | .KW_DEASSIGN => some (c! "deassign") | .KW_FORCE => some (c! "force")
  | .KW_RELEASE => some (c! "release") | .KW_NEW => some (c! "new") | .KW_VAR => some (c! "var") | .KW_STATIC => some (c! "static")
  | .KW_AUTOMATIC => some (c! "automatic") | .KW_UNIQUE0 => some (c! "unique0") | .KW_PRIORITY => some (c! "priority")
  | .KW_LOCALPARAM => some (c! "localparam") | .KW_PARAMETER => some (c! "parameter") | .KW_TYPEDEF => some (c! "typedef")
  | .KW_IMPORT => some (c! "import") | .KW_LET => some (c! "let") | .KW_NETTYPE => some (c! "nettype")
  | .KW_1STEP => some (c! "1step")
  | .KW_INITIAL => some (c! "initial") | .KW_ALWAYS => some (c! "always") | .KW_ALWAYS_COMB => some (c! "always_comb")
  | .KW_ALWAYS_FF => some (c! "always_ff") | .KW_ALWAYS_LATCH => some (c! "always_latch") | .KW_GENVAR => some (c! "genvar")
  | .KW_GENERATE => some (c! "generate") | .KW_ENDGENERATE => some (c! "endgenerate") | .KW_RAND => some (c! "rand")
  | .KW_MODULE => some (c! "module") | .KW_MACROMODULE => some (c! "macromodule") | .KW_ENDMODULE => some (c! "endmodule")
  | .KW_EXTERN => some (c! "extern") | .KW_INPUT => some (c! "input") | .KW_OUTPUT => some (c! "output")
  | .KW_INOUT => some (c! "inout") | .KW_REF => some (c! "ref") | .KW_INTERCONNECT => some (c! "interconnect")
  | .KW_SUPPLY0 => some (c! "supply0") | .KW_SUPPLY1 => some (c! "supply1") | .KW_TRI => some (c! "tri") | .KW_TRIAND => some (c! "triand") | .KW_TRIOR => some (c! "trior") | .KW_TRIREG => some (c! "trireg") | .KW_TRI0 => some (c! "tri0") | .KW_TRI1 => some (c! "tri1") | .KW_UWIRE => some (c! "uwire") | .KW_WIRE => some (c! "wire") | .KW_WAND => some (c! "wand") | .KW_WOR => some (c! "wor") | .KW_VECTORED => some (c! "vectored") | .KW_SCALARED => some (c! "scalared")
  | _ => none
/-- The token that the rules for expressions and statements see for an element: the type of a keyword or symbol is determined by its text. -/
def SeenAs (x : LTy × Str) (t : STok) : Prop := t.text = Lrm.bytes x.2 ∧ match x.1 with
  | .kw s => kwText t.ty = some s ∨ (t.ty = .OTHER ∧ ∀ y, kwText y ≠ some s)
  | .sym s => symText t.ty = some s ∨ (t.ty = .OTHER ∧ ∀ y, symText y ≠ some s)
  | .TIME_LITERAL => t.ty = .TIME_LITERAL
  | .ANY_BASED_NUMBER => t.ty = .ANY_BASED_NUMBER
  | .BASED_NUMBER_WITH_SIZE => t.ty = .BASED_NUMBER_WITH_SIZE
  | .REAL_NUMBER_WITH_EXP => t.ty = .REAL_NUMBER_WITH_EXP
  | .FIXED_POINT_NUMBER => t.ty = .FIXED_POINT_NUMBER
  | .UNSIGNED_NUMBER => t.ty = .UNSIGNED_NUMBER
  | .UNBASED_UNSIZED_LITERAL => t.ty = .UNBASED_UNSIZED_LITERAL
  | .STRING_LITERAL => t.ty = .STRING_LITERAL
  | .C_IDENTIFIER => t.ty = .C_IDENTIFIER
  | .ESCAPED_IDENTIFIER => t.ty = .ESCAPED_IDENTIFIER
  | .SIMPLE_IDENTIFIER => t.ty = .SIMPLE_IDENTIFIER
  | .SYSTEM_TF_IDENTIFIER => t.ty = .SYSTEM_TF_IDENTIFIER
  | _ => t.ty = .OTHER

end Verif.Spec.SvLex
