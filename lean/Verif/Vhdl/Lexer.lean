import Verif.Antlr
import Verif.Vhdl.Token
/-!
# Model of the VHDL lexer (grammars/vhdlLexer.g4)

Every rule of the grammar is one entry of `rules`, in the order of the file. The input are the code points of the text
(`ANTLRInputStream` decodes UTF-8), the text of a token is UTF-8 again (`Token::getText`). The matching is that of `Antlr.lean`.
-/
namespace Verif.Vhdl
open Verif.Antlr Verif.Antlr.Re

/-! ## Fragments -/

/-- lines 1-29: a letter in both cases. -/
def ci (c : Char) : Re := set [c, c.toUpper]
/-- `I F` -/
def ciLit : Str → Re
  | [] => eps
  | [c] => ci c
  | c :: s => seq (ci c) (ciLit s)

/-- lines 75. -/
def LETTER : Re := alts [rng 'A' 'Z', rng 'a' 'z', set ['\u00c5']]
/-- line 223. -/
def DIGITr : Re := rng '0' '9'
/-- lines 74, 32. -/
def LETTER_OR_DIGIT : Re := alt LETTER DIGITr
/-- line 33. -/
def BASE_SPECIFIER : Re := alts [ci 'b', ci 'o', ci 'x', seq (ci 'u') (ci 'b'), seq (ci 'u') (ci 'o'), seq (ci 'u') (ci 'x'),
  seq (ci 's') (ci 'b'), seq (ci 's') (ci 'o'), seq (ci 's') (ci 'x'), ci 'd']
/-- lines 40-43. -/
def SPECIAL_CHARACTER : Re := set ['#', '&', '\'', '(', ')', '*', '+', ',', '-', '.', '/', ':', ';', '<', '=', '>', '?', '@', '[', ']', '_',
  '`', '|']
/-- The characters of lines 45-72. -/
def otherChars : List Char := [
  '!', '$', '%', '{', '}', '~', '^', ' ', '\u00b4', '\u040e', '\u045e', '\u0408', '\u00a4', '\u0490', '\u0401', '\u00a9',
  '\u0404', '\u00ab', '\u00ac', '\u00ad', '\u00a7', '\u0407', '\u00b0', '\u00b1', '\u0406', '\u0456', '\u0491', '\u00b5',
  '\u00b6', '\u00b7', '\u0451', '\u2116', '\u0454', '\u00bb', '\u0458', '\u0405', '\u0455', '\u0457', '\u0410', '\u0411',
  '\u0412', '\u0413', '\u0414', '\u0415', '\u0416', '\u0417', '\u0418', '\u0419', '\u041a', '\u041b', '\u041c', '\u041d',
  '\u041e', '\u041f', '\u0420', '\u0421', '\u0422', '\u0423', '\u0424', '\u0425', '\u0426', '\u0427', '\u0428', '\u0429',
  '\u042a', '\u042b', '\u042c', '\u042d', '\u042e', '\u042f', '\u0430', '\u0431', '\u0432', '\u0433', '\u0434', '\u0435',
  '\u0436', '\u0437', '\u0438', '\u0439', '\u043a', '\u043b', '\u043c', '\u043d', '\u043e', '\u043f', '\u0440', '\u0441',
  '\u0442', '\u0443', '\u0444', '\u0445', '\u0446', '\u0447', '\u0448', '\u0449', '\u044a', '\u044b', '\u044c', '\u044d',
  '\u044e', '\u044f', '\u00a0', '\u00a1', '\u00a2', '\u00a3', '\u00a6', '\u00a5', '\u00ae', '\u00af', '\u00b8', '\u00b9',
  '\u00ba', '\u00bc', '\u00bd', '\u00be', '\u00bf', '\u00b2', '\u00b3', '\u00c0', '\u00c1', '\u00c2', '\u00c3', '\u00c4',
  '\u00c6', '\u00c7', '\u00c8', '\u00c9', '\u00ca', '\u00cb', '\u00cc', '\u00cd', '\u00ce', '\u00cf', '\u00d0', '\u00d1',
  '\u00d2', '\u00d3', '\u00d4', '\u00d5', '\u00d6', '\u00d7', '\u00d8', '\u00d9', '\u00da', '\u00db', '\u00dc', '\u00dd',
  '\u00de', '\u00df', '\u00e0', '\u00e1', '\u00e2', '\u00e3', '\u00e4', '\u00e5', '\u00e6', '\u00e7', '\u00e8', '\u00e9',
  '\u00ea', '\u00eb', '\u00ec', '\u00ed', '\u00ee', '\u00ef', '\u00f0', '\u00f1', '\u00f2', '\u00f3', '\u00f4', '\u00f5',
  '\u00f6', '\u00f7', '\u00f8', '\u00f9', '\u00fa', '\u00fb', '\u00fc', '\u00fd', '\u00fe', '\u00ff', '\u00a8', '\u00aa']
/-- lines 45-72. -/
def OTHER_SPECIAL_CHARACTER : Re := set otherChars
/-- lines 35-39. -/
def GRAPHIC_CHARACTER : Re := alts [SPECIAL_CHARACTER, LETTER_OR_DIGIT, OTHER_SPECIAL_CHARACTER]
/-- line 190: `DIGIT ( UNDERSCORE? DIGIT )*` -/
def INTEGERr : Re := seq DIGITr (star (seq (opt (set ['_'])) DIGITr))
/-- line 191. -/
def EXPONENT : Re := alt (seq (ci 'e') (seq (opt (set ['+'])) INTEGERr)) (seq (ci 'e') (seq (set ['-']) INTEGERr))
/-- lines 193-195. -/
def BASED_INTEGER : Re := seq LETTER_OR_DIGIT (star (seq (opt (set ['_'])) LETTER_OR_DIGIT))

/-! ## Rules -/

/-- A rule: its token type, its expression, and whether the parser does not see the token (`skip`, `channel(HIDDEN)`). -/
structure LRule where
  ty : VT
  re : Re
  hide : Bool

/-- lines 183-185. -/
def BASIC_IDENTIFIERr : Re := seq LETTER (star (seq (opt (set ['_'])) LETTER_OR_DIGIT))
/-- lines 186-188. -/
def EXTENDED_IDENTIFIERr : Re := seq (set ['\\']) (seq (plus (alt GRAPHIC_CHARACTER (lit ['\\', '\\']))) (set ['\\']))
/-- line 189. -/
def DECIMAL_LITERALr : Re := seq INTEGERr (seq (opt (seq (set ['.']) INTEGERr)) (opt EXPONENT))
/-- lines 196-198. -/
def BASED_LITERALr : Re := seq INTEGERr (seq (set ['#']) (seq BASED_INTEGER (seq (opt (seq (set ['.']) BASED_INTEGER)) (seq (set ['#'])
  (opt EXPONENT)))))
/-- lines 199-205 without the predicate. -/
def CHARACTER_LITERALr : Re := seq (set ['\'']) (seq (alts [GRAPHIC_CHARACTER, set ['"'], set ['\\']]) (set ['\'']))
/-- line 206. -/
def STRING_LITERALr : Re := seq (set ['"']) (seq (star (alts [GRAPHIC_CHARACTER, lit ['"', '"'], set ['\\']])) (set ['"']))
/-- lines 207-210. -/
def BIT_STRING_LITERALr : Re := seq (opt INTEGERr) (seq BASE_SPECIFIER (seq (set ['"'])
  (seq (opt (seq GRAPHIC_CHARACTER (star (seq (opt (set ['_'])) GRAPHIC_CHARACTER)))) (set ['"']))))
/-- line 213. -/
def COMMENTr : Re := seq (lit ['-', '-']) (star (non ['\n']))
/-- line 214: `'/*' .*? '*/'`: the text up to the first `*/`. -/
def BLOCK_COMMENTr : Re :=
  seq (lit ['/', '*']) (seq (star (alt (non ['*']) (seq (plus (set ['*'])) (non ['*', '/'])))) (seq (plus (set ['*'])) (set ['/'])))

/-- lines 76-181. -/
def kwRules : List LRule := Kw.all.map fun k => ⟨.kw k, ciLit k.text, false⟩

/-- lines 183-218. -/
def midRules : List LRule := [
  ⟨.BASIC_IDENTIFIER, BASIC_IDENTIFIERr, false⟩,
  ⟨.EXTENDED_IDENTIFIER, EXTENDED_IDENTIFIERr, false⟩,
  ⟨.DECIMAL_LITERAL, DECIMAL_LITERALr, false⟩,
  ⟨.INTEGER, INTEGERr, false⟩,
  ⟨.BASED_LITERAL, BASED_LITERALr, false⟩,
  ⟨.CHARACTER_LITERAL, CHARACTER_LITERALr, false⟩,
  ⟨.STRING_LITERAL, STRING_LITERALr, false⟩,
  ⟨.BIT_STRING_LITERAL, BIT_STRING_LITERALr, false⟩,
  ⟨.COMMENT, COMMENTr, true⟩,
  ⟨.BLOCK_COMMENT, BLOCK_COMMENTr, true⟩,
  ⟨.TAB, plus (set ['\t']), true⟩,
  ⟨.SPACE, plus (set [' ']), true⟩,
  ⟨.NEWLINE, set ['\n'], true⟩,
  ⟨.CR, set ['\r'], true⟩]

/-- lines 220-263: token types and texts. -/
def symTexts : List (VT × Str) := [
  (.SPACE_CHARACTER, [' ']), (.DBLQUOTE, ['"']), (.UNDERSCORE, ['_']), (.SEMI, [';']), (.LPAREN, ['(']), (.RPAREN, [')']),
  (.LSQUARE_BR, ['[']), (.RSQUARE_BR, [']']), (.APOSTROPHE, ['\'']), (.SHIFT_LEFT, ['<', '<']), (.SHIFT_RIGHT, ['>', '>']),
  (.AT, ['@']), (.HASHTAG, ['#']), (.COMMA, [',']), (.DOT, ['.']), (.QUESTIONMARK, ['?']), (.COLON, [':']), (.EQ, ['=']),
  (.NE, ['/', '=']), (.LT, ['<']), (.GT, ['>']), (.GE, ['>', '=']), (.EQ_MATCH, ['?', '=']), (.NE_MATCH, ['?', '/', '=']),
  (.LT_MATCH, ['?', '<']), (.LE_MATCH, ['?', '<', '=']), (.GT_MATCH, ['?', '>']), (.GE_MATCH, ['?', '>', '=']), (.PLUS, ['+']),
  (.MINUS, ['-']), (.AMPERSAND, ['&']), (.BAR, ['|']), (.BACKSLASH, ['\\']), (.MUL, ['*']), (.DIV, ['/']),
  (.DOUBLESTAR, ['*', '*']), (.CONASGN, ['<', '=']), (.GRAVE_ACCENT, ['`']), (.UP, ['^']), (.VARASGN, [':', '=']),
  (.BOX, ['<', '>']), (.ARROW, ['=', '>']), (.COND_OP, ['?', '?'])]
/-- lines 220-263; line 223 (`DIGIT`) stands in front, which makes no difference: no other rule here matches a digit. -/
def symRules : List LRule := ⟨.DIGIT, DIGITr, false⟩ :: symTexts.map fun x => ⟨x.1, lit x.2, false⟩

/-- All rules in the order of the file. -/
def rules : List LRule := kwRules ++ midRules ++ symRules

/-- lines 202: the predicate of CHARACTER_LITERAL, evaluated behind the apostrophe (`LexerATNSimulator::evaluatePredicate` consumes
the current symbol first): `LA(1) != '(' || LA(4) != '\''`. -/
def charGuard (s : Str) : Bool := s[1]? != some '(' || s[4]? != some '\''

/-- The rules that can match at the start of the text `s`. -/
def rulesAt (s : Str) : List LRule := rules.filter fun r => r.ty != .CHARACTER_LITERAL || charGuard s

/-- UTF-8 of a text (as Lean's library defines it), one `Char` per byte. -/
def utf8 (s : Str) : Str := s.flatMap fun c => (String.utf8EncodeChar c).map fun b => Char.ofNat b.toNat

/-- `Lexer::nextToken` until the end of the input, tokens on the default channel. `none`: at some place no rule matches (the lexer
reports it to the error listener). Fuel: the number of characters is enough, every match has a character. -/
def lexFrom : Nat → Str → Option (List VTok)
  | _, [] => some []
  | 0, _ => none
  | fuel + 1, s =>
    match pick LRule.re (rulesAt s) (syms s) with
    | none => none
    | some (r, n) =>
      match lexFrom fuel (s.drop n) with
      | none => none
      | some ts => some (if r.hide then ts else ⟨r.ty, utf8 (s.take n)⟩ :: ts)

/-- All tokens of a text in front of EOF, `none` if there is a lexical error. -/
def lex (s : Str) : Option (List VTok) := lexFrom s.length s

end Verif.Vhdl
