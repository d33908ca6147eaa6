import Verif.Antlr
import Verif.Sv.LexToken
/-!
# Model of the SystemVerilog lexer (grammars/sv2017Lexer.g4)

Every rule of the grammar is one entry of `rules` (default mode) or `tableRules` (mode TABLE_MODE), in the order of the file. The input
are the code points of the preprocessed text, the text of a token is UTF-8 again (`Token::getText`). The matching is that of
`Antlr.lean`. The predicates `language_version >= ...` stand at the end of the rules of keywords: a rule whose predicate does not
hold does not match.
-/
namespace Verif.Sv
open Verif.Antlr Verif.Antlr.Re

/-- The keywords of which the rules for expressions and statements know the token type. -/
def kwST : List (Str × ST) := [
  (c! "sample", .KW_SAMPLE), (c! "randomize", .KW_RANDOMIZE), (c! "type_option", .KW_TYPE_OPTION),
  (c! "option", .KW_OPTION), (c! "std", .KW_STD), (c! "null", .KW_NULL), (c! "this", .KW_THIS), (c! "super", .KW_SUPER),
  (c! "local", .KW_LOCAL), (c! "$setuphold", .KW_DOLAR_SETUPHOLD), (c! "$setup", .KW_DOLAR_SETUP),
  (c! "$fullskew", .KW_DOLAR_FULLSKEW), (c! "$warning", .KW_DOLAR_WARNING), (c! "$width", .KW_DOLAR_WIDTH),
  (c! "$root", .KW_DOLAR_ROOT), (c! "$recovery", .KW_DOLAR_RECOVERY), (c! "$skew", .KW_DOLAR_SKEW),
  (c! "$fatal", .KW_DOLAR_FATAL), (c! "$removal", .KW_DOLAR_REMOVAL), (c! "$recrem", .KW_DOLAR_RECREM),
  (c! "$error", .KW_DOLAR_ERROR), (c! "$period", .KW_DOLAR_PERIOD), (c! "$hold", .KW_DOLAR_HOLD),
  (c! "$info", .KW_DOLAR_INFO), (c! "$unit", .KW_DOLAR_UNIT), (c! "$timeskew", .KW_DOLAR_TIMESKEW),
  (c! "$nochange", .KW_DOLAR_NOCHANGE), (c! "bit", .KW_BIT), (c! "logic", .KW_LOGIC), (c! "reg", .KW_REG),
  (c! "byte", .KW_BYTE), (c! "shortint", .KW_SHORTINT), (c! "int", .KW_INT), (c! "longint", .KW_LONGINT),
  (c! "integer", .KW_INTEGER), (c! "time", .KW_TIME), (c! "shortreal", .KW_SHORTREAL), (c! "real", .KW_REAL),
  (c! "realtime", .KW_REALTIME), (c! "signed", .KW_SIGNED), (c! "unsigned", .KW_UNSIGNED), (c! "string", .KW_STRING),
  (c! "const", .KW_CONST), (c! "chandle", .KW_CHANDLE), (c! "virtual", .KW_VIRTUAL), (c! "interface", .KW_INTERFACE),
  (c! "event", .KW_EVENT), (c! "enum", .KW_ENUM), (c! "struct", .KW_STRUCT), (c! "union", .KW_UNION), (c! "type", .KW_TYPE),
  (c! "default", .KW_DEFAULT), (c! "tagged", .KW_TAGGED), (c! "matches", .KW_MATCHES), (c! "inside", .KW_INSIDE),
  (c! "with", .KW_WITH), (c! "unique", .KW_UNIQUE), (c! "and", .KW_AND), (c! "or", .KW_OR), (c! "xor", .KW_XOR),
  (c! "posedge", .KW_POSEDGE), (c! "negedge", .KW_NEGEDGE), (c! "edge", .KW_EDGE), (c! "iff", .KW_IFF),
  (c! "if", .KW_IF), (c! "else", .KW_ELSE), (c! "begin", .KW_BEGIN), (c! "end", .KW_END), (c! "fork", .KW_FORK),
  (c! "join", .KW_JOIN), (c! "join_any", .KW_JOIN_ANY), (c! "join_none", .KW_JOIN_NONE), (c! "case", .KW_CASE),
  (c! "casez", .KW_CASEZ), (c! "casex", .KW_CASEX), (c! "endcase", .KW_ENDCASE), (c! "for", .KW_FOR), (c! "forever", .KW_FOREVER),
  (c! "foreach", .KW_FOREACH), (c! "repeat", .KW_REPEAT), (c! "while", .KW_WHILE), (c! "do", .KW_DO), (c! "return", .KW_RETURN),
  (c! "break", .KW_BREAK), (c! "continue", .KW_CONTINUE), (c! "void", .KW_VOID), (c! "disable", .KW_DISABLE), (c! "wait", .KW_WAIT),
  (c! "wait_order", .KW_WAIT_ORDER), (c! "randcase", .KW_RANDCASE), (c! "assign", .KW_ASSIGN), (c! "deassign", .KW_DEASSIGN),
  (c! "force", .KW_FORCE), (c! "release", .KW_RELEASE), (c! "new", .KW_NEW), (c! "var", .KW_VAR), (c! "static", .KW_STATIC),
  (c! "automatic", .KW_AUTOMATIC), (c! "unique0", .KW_UNIQUE0), (c! "priority", .KW_PRIORITY), (c! "localparam", .KW_LOCALPARAM),
  (c! "parameter", .KW_PARAMETER), (c! "typedef", .KW_TYPEDEF), (c! "import", .KW_IMPORT), (c! "let", .KW_LET),
  (c! "nettype", .KW_NETTYPE), (c! "1step", .KW_1STEP), (c! "initial", .KW_INITIAL), (c! "always", .KW_ALWAYS),
  (c! "always_comb", .KW_ALWAYS_COMB), (c! "always_ff", .KW_ALWAYS_FF), (c! "always_latch", .KW_ALWAYS_LATCH), (c! "genvar", .KW_GENVAR),
  (c! "generate", .KW_GENERATE), (c! "endgenerate", .KW_ENDGENERATE), (c! "rand", .KW_RAND),
  (c! "module", .KW_MODULE), (c! "macromodule", .KW_MACROMODULE), (c! "endmodule", .KW_ENDMODULE), (c! "extern", .KW_EXTERN), (c! "input", .KW_INPUT),
  (c! "output", .KW_OUTPUT), (c! "inout", .KW_INOUT), (c! "ref", .KW_REF), (c! "interconnect", .KW_INTERCONNECT),
  (c! "supply0", .KW_SUPPLY0), (c! "supply1", .KW_SUPPLY1), (c! "tri", .KW_TRI), (c! "triand", .KW_TRIAND), (c! "trior", .KW_TRIOR), (c! "trireg", .KW_TRIREG), (c! "tri0", .KW_TRI0), (c! "tri1", .KW_TRI1), (c! "uwire", .KW_UWIRE), (c! "wire", .KW_WIRE), (c! "wand", .KW_WAND), (c! "wor", .KW_WOR), (c! "vectored", .KW_VECTORED), (c! "scalared", .KW_SCALARED)]

/-- The symbols of which the rules for expressions and statements know the token type. -/
def symST : List (Str × ST) := [
  (c! "$", .DOLAR), (c! "(", .LPAREN), (c! ")", .RPAREN), (c! "[", .LSQUARE_BR), (c! "]", .RSQUARE_BR), (c! "{", .LBRACE),
  (c! "}", .RBRACE), (c! "'", .APOSTROPHE), (c! "'{", .APOSTROPHE_LBRACE), (c! ",", .COMMA), (c! ".", .DOT),
  (c! ":", .COLON), (c! "::", .DOUBLE_COLON), (c! ";", .SEMI), (c! "#", .HASH), (c! "@", .AT), (c! "?", .QUESTIONMARK),
  (c! "+", .PLUS), (c! "-", .MINUS), (c! "!", .NOT), (c! "~", .NEG), (c! "&", .AMPERSAND), (c! "~&", .NAND), (c! "|", .BAR),
  (c! "~|", .NOR), (c! "^", .XOR), (c! "~^", .NXOR), (c! "^~", .XORN), (c! "++", .INCR), (c! "--", .DECR),
  (c! "**", .DOUBLESTAR), (c! "*", .MUL), (c! "/", .DIV), (c! "%", .MOD), (c! "<<", .SHIFT_LEFT), (c! ">>", .SHIFT_RIGHT),
  (c! "<<<", .ARITH_SHIFT_LEFT), (c! ">>>", .ARITH_SHIFT_RIGHT), (c! "<", .LT), (c! "<=", .LE), (c! ">", .GT),
  (c! ">=", .GE), (c! "==", .EQ), (c! "!=", .NE), (c! "===", .CASE_EQ), (c! "!==", .CASE_NE), (c! "==?", .WILDCARD_EQ),
  (c! "!=?", .WILDCARD_NE), (c! "&&", .AND_LOG), (c! "||", .OR_LOG), (c! "&&&", .TRIPLE_AND), (c! "->", .ARROW),
  (c! "<->", .BI_DIR_ARROW), (c! "=", .ASSIGN), (c! "+=", .PLUS_ASSIGN), (c! "-=", .MINUS_ASSIGN), (c! "*=", .MUL_ASSIGN),
  (c! "/=", .DIV_ASSIGN), (c! "%=", .MOD_ASSIGN), (c! "&=", .AND_ASSIGN), (c! "|=", .OR_ASSIGN), (c! "^=", .XOR_ASSIGN),
  (c! "<<=", .SHIFT_LEFT_ASSIGN), (c! ">>=", .SHIFT_RIGHT_ASSIGN), (c! "<<<=", .ARITH_SHIFT_LEFT_ASSIGN),
  (c! ">>>=", .ARITH_SHIFT_RIGHT_ASSIGN),
  (c! "##", .DOUBLE_HASH), (c! "->>", .DOUBLE_RIGHT_ARROW)]

/-- The token type as the rules for expressions and statements see it. -/
def LTy.st : LTy → ST
  | .kw s => (kwST.lookup s).getD .OTHER
  | .sym s => (symST.lookup s).getD .OTHER
  | .TIME_LITERAL => .TIME_LITERAL
  | .ANY_BASED_NUMBER => .ANY_BASED_NUMBER
  | .BASED_NUMBER_WITH_SIZE => .BASED_NUMBER_WITH_SIZE
  | .REAL_NUMBER_WITH_EXP => .REAL_NUMBER_WITH_EXP
  | .FIXED_POINT_NUMBER => .FIXED_POINT_NUMBER
  | .UNSIGNED_NUMBER => .UNSIGNED_NUMBER
  | .UNBASED_UNSIZED_LITERAL => .UNBASED_UNSIZED_LITERAL
  | .STRING_LITERAL => .STRING_LITERAL
  | .C_IDENTIFIER => .C_IDENTIFIER
  | .ESCAPED_IDENTIFIER => .ESCAPED_IDENTIFIER
  | .SIMPLE_IDENTIFIER => .SIMPLE_IDENTIFIER
  | .SYSTEM_TF_IDENTIFIER => .SYSTEM_TF_IDENTIFIER
  | _ => .OTHER

/-! ## Fragments -/

/-- line 558 -/
def ZERO_OR_ONE : Re := set ['0', '1']
/-- line 559 -/
def Z_OR_X : Re := set ['x', 'X', 'z', 'Z']
/-- lines 552-557 -/
def EDGE_DESCRIPTOR : Re := alts [seq Z_OR_X ZERO_OR_ONE, seq ZERO_OR_ONE Z_OR_X, lit ['0', '1'], lit ['1', '0']]
/-- lines 560-567 -/
def TIME_UNIT : Re := alts [lit ['s'], lit ['m', 's'], lit ['u', 's'], lit ['n', 's'], lit ['p', 's'], lit ['f', 's']]
/-- line 608 -/
def DECIMAL_DIGIT : Re := rng '0' '9'
/-- line 630 -/
def UNDERSCORE : Re := set ['_']
/-- line 551 -/
def WHITE_SPACEr : Re := plus (set [' ', '\t', '\n', '\r', '\x0c'])
/-- `d ( UNDERSCORE | d )*` with `d` one of the digits (lines 451-455, 587-598) -/
def digits (d : Re) : Re := seq d (star (alt UNDERSCORE d))
/-- lines 451-455 -/
def UNSIGNED_NUMBERr : Re := digits DECIMAL_DIGIT
/-- lines 449-450 -/
def FIXED_POINT_NUMBERr : Re := seq UNSIGNED_NUMBERr (seq (set ['.']) UNSIGNED_NUMBERr)
/-- line 624 -/
def X_DIGIT : Re := set ['x', 'X']
/-- lines 625-628 -/
def Z_DIGIT : Re := alt (set ['?']) (set ['z', 'Z'])
/-- lines 609-613 -/
def BINARY_DIGIT : Re := alts [X_DIGIT, Z_DIGIT, set ['0', '1']]
/-- lines 614-618 -/
def OCTAL_DIGIT : Re := alts [X_DIGIT, Z_DIGIT, rng '0' '7']
/-- lines 619-623 -/
def HEX_DIGIT : Re := alts [X_DIGIT, Z_DIGIT, alts [rng '0' '9', rng 'a' 'f', rng 'A' 'F']]
/-- `APOSTROPHE ( WHITE_SPACE )? ( [sS] )? ( WHITE_SPACE )? [dD] ( WHITE_SPACE )?` with the letters `l` of the base (lines 599-606) -/
def baseRe (l : List Char) : Re := seqs [set ['\''], opt WHITE_SPACEr, opt (set ['s', 'S']), opt WHITE_SPACEr, set l, opt WHITE_SPACEr]
/-- ANY_ASCII_CHARACTERS, lines 631-638 -/
def stringChar : Re := alts [
  non ['"', '\\', '\r', '\n'],
  lit ['\\', '\n'],
  lit ['\\', '\r', '\n'],
  seq (set ['\\']) (set ['a', 'b', 'e', 'f', 'n', 'r', 't', 'v', '$', '@', 'l', 'u', 'L', 'E', 'Q', 'U', '\\', '"', '%']),
  seqs [set ['\\'], DECIMAL_DIGIT, opt DECIMAL_DIGIT, opt DECIMAL_DIGIT],
  seqs [set ['\\'], set ['x'], alts [rng '0' '9', rng 'A' 'F', rng 'a' 'f'], opt (alts [rng '0' '9', rng 'A' 'F', rng 'a' 'f'])]]
/-- `[a-zA-Z_]` (lines 462, 465) -/
def identStart : Re := alts [rng 'a' 'z', rng 'A' 'Z', set ['_']]
/-- `[a-zA-Z0-9_]` (line 462) -/
def identChar : Re := alts [rng 'a' 'z', rng 'A' 'Z', rng '0' '9', set ['_']]
/-- `[a-zA-Z0-9_$]` (lines 465, 466) -/
def identCharD : Re := alts [rng 'a' 'z', rng 'A' 'Z', rng '0' '9', set ['_', '$']]

/-! ## Rules -/

/-- A rule: its token type, its expression, whether the parser does not see the token (`channel(HIDDEN)`), and the least
`language_version` of its predicate. -/
structure SRule where
  ty : LTy
  re : Re
  hide : Bool
  since : Nat

/-- lines 16-431: the texts of the keywords and the versions of their predicates (enum Language in include/hdlConvertor/language.h). -/
def kwTexts : List (Str × Nat) := [
  (c! "$error", 0), (c! "$fatal", 0), (c! "$fullskew", 0), (c! "$hold", 0), (c! "$info", 0), (c! "$nochange", 0),
  (c! "$period", 0), (c! "$recovery", 0), (c! "$recrem", 0), (c! "$removal", 0), (c! "$root", 0), (c! "$setup", 0),
  (c! "$setuphold", 0), (c! "$skew", 0), (c! "$timeskew", 0), (c! "$unit", 0), (c! "$warning", 0), (c! "$width", 0),
  (c! "1step", 0), (c! "PATHPULSE$", 0), (c! "accept_on", 6), (c! "alias", 5), (c! "always", 0), (c! "always_comb", 5),
  (c! "always_ff", 5), (c! "always_latch", 5), (c! "and", 0), (c! "assert", 5), (c! "assign", 0), (c! "assume", 5),
  (c! "automatic", 2), (c! "before", 5), (c! "begin", 0), (c! "bind", 5), (c! "bins", 5), (c! "binsof", 5), (c! "bit", 5),
  (c! "break", 5), (c! "buf", 0), (c! "bufif0", 0), (c! "bufif1", 0), (c! "byte", 5), (c! "case", 0), (c! "casex", 0),
  (c! "casez", 0), (c! "cell", 2), (c! "chandle", 5), (c! "checker", 6), (c! "class", 5), (c! "clocking", 5),
  (c! "cmos", 0), (c! "config", 2), (c! "const", 5), (c! "constraint", 5), (c! "context", 5), (c! "continue", 5),
  (c! "cover", 5), (c! "covergroup", 5), (c! "coverpoint", 5), (c! "cross", 5), (c! "deassign", 0), (c! "default", 0),
  (c! "defparam", 0), (c! "design", 2), (c! "disable", 0), (c! "dist", 5), (c! "do", 5), (c! "edge", 0), (c! "else", 0),
  (c! "end", 0), (c! "endcase", 0), (c! "endchecker", 6), (c! "endclass", 5), (c! "endclocking", 5), (c! "endconfig", 2),
  (c! "endfunction", 0), (c! "endgenerate", 2), (c! "endgroup", 5), (c! "endinterface", 5), (c! "endmodule", 0),
  (c! "endpackage", 5), (c! "endprimitive", 0), (c! "endprogram", 5), (c! "endproperty", 5), (c! "endsequence", 5),
  (c! "endspecify", 0), (c! "endtable", 0), (c! "endtask", 0), (c! "enum", 5), (c! "event", 0), (c! "eventually", 6),
  (c! "expect", 5), (c! "export", 5), (c! "extends", 5), (c! "extern", 5), (c! "final", 5), (c! "first_match", 5),
  (c! "for", 0), (c! "force", 0), (c! "foreach", 5), (c! "forever", 0), (c! "fork", 0), (c! "forkjoin", 5),
  (c! "function", 0), (c! "generate", 2), (c! "genvar", 2), (c! "global", 6), (c! "highz0", 0), (c! "highz1", 0),
  (c! "if", 0), (c! "iff", 5), (c! "ifnone", 0), (c! "ignore_bins", 5), (c! "illegal_bins", 5), (c! "implements", 7),
  (c! "implies", 6), (c! "import", 5), (c! "incdir", 5), (c! "include", 5), (c! "initial", 0), (c! "inout", 0),
  (c! "input", 0), (c! "inside", 5), (c! "instance", 2), (c! "int", 5), (c! "integer", 0), (c! "interconnect", 7),
  (c! "interface", 5), (c! "intersect", 5), (c! "join", 0), (c! "join_any", 5), (c! "join_none", 5), (c! "large", 0),
  (c! "let", 6), (c! "library", 5), (c! "liblist", 2), (c! "local", 5), (c! "localparam", 2), (c! "logic", 5),
  (c! "longint", 5), (c! "macromodule", 0), (c! "matches", 5), (c! "medium", 0), (c! "modport", 5), (c! "module", 0),
  (c! "nand", 0), (c! "negedge", 0), (c! "nettype", 7), (c! "new", 5), (c! "nexttime", 6), (c! "nmos", 0), (c! "nor", 0),
  (c! "noshowcancelled", 2), (c! "not", 0), (c! "notif0", 0), (c! "notif1", 0), (c! "null", 5), (c! "option", 0),
  (c! "or", 0), (c! "output", 0), (c! "package", 5), (c! "packed", 5), (c! "parameter", 0), (c! "pmos", 0),
  (c! "posedge", 0), (c! "primitive", 0), (c! "priority", 5), (c! "program", 5), (c! "property", 5), (c! "protected", 5),
  (c! "pull0", 0), (c! "pull1", 0), (c! "pulldown", 0), (c! "pullup", 0), (c! "pulsestyle_ondetect", 2),
  (c! "pulsestyle_onevent", 2), (c! "pure", 5), (c! "rand", 5), (c! "randc", 5), (c! "randcase", 5), (c! "randomize", 0),
  (c! "randsequence", 5), (c! "rcmos", 0), (c! "real", 0), (c! "realtime", 0), (c! "ref", 5), (c! "reg", 0),
  (c! "reject_on", 6), (c! "release", 0), (c! "repeat", 0), (c! "restrict", 6), (c! "return", 5), (c! "rnmos", 0),
  (c! "rpmos", 0), (c! "rtran", 0), (c! "rtranif0", 0), (c! "rtranif1", 0), (c! "s_always", 6), (c! "s_eventually", 6),
  (c! "s_nexttime", 6), (c! "s_until", 6), (c! "s_until_with", 6), (c! "sample", 0), (c! "scalared", 0), (c! "sequence", 5),
  (c! "shortint", 5), (c! "shortreal", 5), (c! "showcancelled", 2), (c! "signed", 2), (c! "small", 0), (c! "soft", 7),
  (c! "solve", 5), (c! "specify", 0), (c! "specparam", 0), (c! "static", 5), (c! "std", 0), (c! "string", 5),
  (c! "strong", 6), (c! "strong0", 0), (c! "strong1", 0), (c! "struct", 5), (c! "super", 5), (c! "supply0", 0),
  (c! "supply1", 0), (c! "sync_accept_on", 6), (c! "sync_reject_on", 6), (c! "table", 0), (c! "tagged", 5), (c! "task", 0),
  (c! "this", 5), (c! "throughout", 5), (c! "time", 0), (c! "timeprecision", 5), (c! "timeunit", 5), (c! "tran", 0),
  (c! "tranif0", 0), (c! "tranif1", 0), (c! "tri", 0), (c! "tri0", 0), (c! "tri1", 0), (c! "triand", 0), (c! "trior", 0),
  (c! "trireg", 0), (c! "type", 5), (c! "type_option", 0), (c! "typedef", 5), (c! "union", 5), (c! "unique", 5),
  (c! "unique0", 6), (c! "unsigned", 2), (c! "until", 6), (c! "until_with", 6), (c! "untyped", 6), (c! "use", 2),
  (c! "uwire", 4), (c! "var", 5), (c! "vectored", 0), (c! "virtual", 5), (c! "void", 5), (c! "wait", 0),
  (c! "wait_order", 5), (c! "wand", 0), (c! "weak", 6), (c! "weak0", 0), (c! "weak1", 0), (c! "while", 0),
  (c! "wildcard", 5), (c! "wire", 0), (c! "with", 5), (c! "within", 5), (c! "wor", 0), (c! "xnor", 0), (c! "xor", 0)]

/-- lines 467-545: the symbols, `SEMI` to `TRIPLE_AND` -/
def symTexts : List Str := [
  c! ";", c! "(", c! ")", c! "[", c! "]", c! "{", c! "}", c! "'", c! "'{", c! "<<", c! ">>", c! "<<<", c! ">>>", c! "$",
  c! "%", c! "!", c! "~", c! "~&", c! "~|", c! "^", c! "~^", c! "^~", c! ",", c! ".", c! "?", c! ":", c! "::", c! "==",
  c! "!=", c! "===", c! "!==", c! "==?", c! "!=?", c! "=", c! "<", c! ">", c! ">=", c! "<=", c! "+=", c! "-=", c! "*=",
  c! "/=", c! "%=", c! "&=", c! "|=", c! "^=", c! "<<=", c! ">>=", c! "<<<=", c! ">>>=", c! "+", c! "-", c! "&", c! "&&",
  c! "|", c! "||", c! "\\", c! "*", c! "/", c! "**", c! "<->", c! "->", c! "->>", c! "++", c! "--", c! ":=", c! "|->",
  c! "|=>", c! "=>", c! "-=>", c! "+=>", c! "*>", c! "#-#", c! "#=#", c! "@", c! "@@", c! "#", c! "##", c! "&&&"]

/-- lines 432-433 -/
def EDGE_CONTROL_SPECIFIERr : Re := seqs [lit ['e', 'd', 'g', 'e'], set ['['], EDGE_DESCRIPTOR, star (seq (set [',']) EDGE_DESCRIPTOR), set [']']]
/-- lines 434-437 -/
def TIME_LITERALr : Re := seq (alt UNSIGNED_NUMBERr FIXED_POINT_NUMBERr) TIME_UNIT
/-- lines 438-445, 568-576 -/
def ANY_BASED_NUMBERr : Re := alts [
  seq (baseRe ['o', 'O']) (digits OCTAL_DIGIT),
  seq (baseRe ['d', 'D']) UNSIGNED_NUMBERr,
  seq (baseRe ['b', 'B']) (digits BINARY_DIGIT),
  seq (baseRe ['d', 'D']) (seq X_DIGIT (star UNDERSCORE)),
  seq (baseRe ['d', 'D']) (seq Z_DIGIT (star UNDERSCORE)),
  seq (baseRe ['h', 'H']) (digits HEX_DIGIT)]
/-- lines 447-448, 577-580, 586 -/
def REAL_NUMBER_WITH_EXPr : Re := seqs [UNSIGNED_NUMBERr, opt (seq (set ['.']) UNSIGNED_NUMBERr), set ['e', 'E'], opt (alt (set ['+']) (set ['-'])),
  UNSIGNED_NUMBERr]
/-- lines 456-460 -/
def UNBASED_UNSIZED_LITERALr : Re := alts [seq (set ['\'']) Z_OR_X, lit ['\'', '0'], lit ['\'', '1']]
/-- line 461 -/
def STRING_LITERALr : Re := seqs [set ['"'], star stringChar, set ['"']]
/-- line 462 -/
def C_IDENTIFIERr : Re := seq identStart (star identChar)
/-- lines 463-464, 639 -/
def ESCAPED_IDENTIFIERr : Re := seqs [set ['\\'], star (rng '!' '~'), WHITE_SPACEr]
/-- line 465 -/
def SIMPLE_IDENTIFIERr : Re := seq identStart (star identCharD)
/-- line 466 -/
def SYSTEM_TF_IDENTIFIERr : Re := seq (set ['$']) (plus identCharD)
/-- lines 546-549: `'//' .*? ( '\r' )? ( EOF | '\n' )`: the text up to the first line feed, or the end of the input. -/
def ONE_LINE_COMMENTr : Re := seqs [lit ['/', '/'], star (non ['\n']), alt eof (set ['\n'])]
/-- line 550: `'/*' .*? '*/'`: the text up to the first `*/`. -/
def BLOCK_COMMENTr : Re :=
  seq (lit ['/', '*']) (seq (star (alt (non ['*']) (seq (plus (set ['*'])) (non ['*', '/'])))) (seq (plus (set ['*'])) (set ['/'])))

/-- lines 432-466: the rules between keywords and symbols -/
def midRules : List SRule := [
  ⟨.EDGE_CONTROL_SPECIFIER, EDGE_CONTROL_SPECIFIERr, false, 0⟩,
  ⟨.TIME_LITERAL, TIME_LITERALr, false, 0⟩,
  ⟨.ANY_BASED_NUMBER, ANY_BASED_NUMBERr, false, 0⟩,
  ⟨.BASED_NUMBER_WITH_SIZE, seq UNSIGNED_NUMBERr ANY_BASED_NUMBERr, false, 0⟩,
  ⟨.REAL_NUMBER_WITH_EXP, REAL_NUMBER_WITH_EXPr, false, 0⟩,
  ⟨.FIXED_POINT_NUMBER, FIXED_POINT_NUMBERr, false, 0⟩,
  ⟨.UNSIGNED_NUMBER, UNSIGNED_NUMBERr, false, 0⟩,
  ⟨.UNBASED_UNSIZED_LITERAL, UNBASED_UNSIZED_LITERALr, false, 0⟩,
  ⟨.STRING_LITERAL, STRING_LITERALr, false, 0⟩,
  ⟨.C_IDENTIFIER, C_IDENTIFIERr, false, 0⟩,
  ⟨.ESCAPED_IDENTIFIER, ESCAPED_IDENTIFIERr, false, 0⟩,
  ⟨.SIMPLE_IDENTIFIER, SIMPLE_IDENTIFIERr, false, 0⟩,
  ⟨.SYSTEM_TF_IDENTIFIER, SYSTEM_TF_IDENTIFIERr, false, 0⟩]

/-- lines 546-551: the rules behind the symbols -/
def hiddenRules : List SRule := [
  ⟨.ONE_LINE_COMMENT, ONE_LINE_COMMENTr, true, 0⟩,
  ⟨.BLOCK_COMMENT, BLOCK_COMMENTr, true, 0⟩,
  ⟨.WHITE_SPACE, WHITE_SPACEr, true, 0⟩]

/-- lines 16-551: all rules of the default mode in the order of the file -/
def rules : List SRule := kwTexts.map (fun x => ⟨.kw x.1, lit x.1, false, x.2⟩) ++ midRules ++
  symTexts.map (fun s => ⟨.sym s, lit s, false, 0⟩) ++ hiddenRules

/-- lines 641-658: the rules of TABLE_MODE in the order of the file -/
def tableRules : List SRule := [
  ⟨.kw (c! "endtable"), lit (c! "endtable"), false, 0⟩,
  ⟨.LEVEL_SYMBOL, alt (set ['?']) (set ['0', '1', 'x', 'X', 'b', 'B']), false, 0⟩,
  ⟨.EDGE_SYMBOL, alt (set ['*']) (set ['r', 'R', 'f', 'F', 'p', 'P', 'n', 'N']), false, 0⟩,
  ⟨.BLOCK_COMMENT, BLOCK_COMMENTr, true, 0⟩,
  ⟨.sym (c! ":"), lit (c! ":"), false, 0⟩,
  ⟨.sym (c! "("), lit (c! "("), false, 0⟩,
  ⟨.sym (c! "-"), lit (c! "-"), false, 0⟩,
  ⟨.ONE_LINE_COMMENT, ONE_LINE_COMMENTr, true, 0⟩,
  ⟨.sym (c! ")"), lit (c! ")"), false, 0⟩,
  ⟨.sym (c! ";"), lit (c! ";"), false, 0⟩,
  ⟨.WHITE_SPACE, plus (set [' ', '\t', '\n', '\r']), true, 0⟩]

/-- The rules which can match: those of the mode of which the predicate holds. -/
def rulesOf (v : Nat) (table : Bool) : List SRule := if table then tableRules else rules.filter fun r => r.since ≤ v

/-- `KW_TABLE -> pushMode(TABLE_MODE)`, `TABLE_MODE_KW_ENDTABLE -> popMode` (lines 642, `KW_TABLE` in 16-431). There is no other change of the mode, so the stack of modes has at
most one element more than the default mode. -/
def nextMode (table : Bool) (t : LTy) : Bool := if table then t != .kw (c! "endtable") else t == .kw (c! "table")

/-- UTF-8 of a text (as Lean's library defines it), one `Char` per byte. -/
def utf8 (s : Str) : Str := s.flatMap fun c => (String.utf8EncodeChar c).map fun b => Char.ofNat b.toNat

/-- The token as the rules for expressions and statements see it. -/
def LTok.tok (t : LTok) : STok := ⟨t.ty.st, t.text⟩

/-- `Lexer::nextToken` until the end of the input, tokens on the default channel. `none`: at some place no rule matches (the lexer
reports it to the error listener). Fuel: the number of characters is enough, every match has a character. -/
def lexFrom (v : Nat) : Nat → Bool → Str → Option (List LTok)
  | _, _, [] => some []
  | 0, _, _ => none
  | fuel + 1, m, s =>
    match pick SRule.re (rulesOf v m) (syms s) with
    | none => none
    | some (r, n) =>
      match lexFrom v fuel (nextMode m r.ty) (s.drop n) with
      | none => none
      | some ts => some (if r.hide then ts else ⟨r.ty, utf8 (s.take n)⟩ :: ts)

/-- All tokens of a text in front of EOF, `none` if there is a lexical error; `v` is the language version. -/
def lex (v : Nat) (s : Str) : Option (List LTok) := lexFrom v s.length false s

end Verif.Sv
