import Verif.CppString
/-!
# Tokens of the SystemVerilog parser (grammars/sv2017Lexer.g4)
-/
namespace Verif.Sv
open Verif

/-- The token types which the rules for expressions and statements use, named as in grammars/sv2017Lexer.g4; `OTHER` is any other type. -/
inductive ST
  | C_IDENTIFIER | SIMPLE_IDENTIFIER | ESCAPED_IDENTIFIER | KW_SAMPLE | KW_RANDOMIZE | KW_TYPE_OPTION | KW_OPTION | KW_STD
  | TIME_LITERAL | UNBASED_UNSIZED_LITERAL | STRING_LITERAL | BASED_NUMBER_WITH_SIZE | ANY_BASED_NUMBER | UNSIGNED_NUMBER
  | REAL_NUMBER_WITH_EXP | FIXED_POINT_NUMBER | KW_NULL | KW_THIS | KW_SUPER | KW_LOCAL | DOLAR
  | SYSTEM_TF_IDENTIFIER | KW_DOLAR_SETUPHOLD | KW_DOLAR_SETUP | KW_DOLAR_FULLSKEW | KW_DOLAR_WARNING | KW_DOLAR_WIDTH
  | KW_DOLAR_ROOT | KW_DOLAR_RECOVERY | KW_DOLAR_SKEW | KW_DOLAR_FATAL | KW_DOLAR_REMOVAL | KW_DOLAR_RECREM | KW_DOLAR_ERROR
  | KW_DOLAR_PERIOD | KW_DOLAR_HOLD | KW_DOLAR_INFO | KW_DOLAR_UNIT | KW_DOLAR_TIMESKEW | KW_DOLAR_NOCHANGE
  | KW_BIT | KW_LOGIC | KW_REG | KW_BYTE | KW_SHORTINT | KW_INT | KW_LONGINT | KW_INTEGER | KW_TIME | KW_SHORTREAL | KW_REAL
  | KW_REALTIME | KW_SIGNED | KW_UNSIGNED | KW_STRING | KW_CONST | KW_CHANDLE | KW_VIRTUAL | KW_INTERFACE | KW_EVENT | KW_ENUM
  | KW_STRUCT | KW_UNION | KW_TYPE | KW_DEFAULT | KW_TAGGED | KW_MATCHES | KW_INSIDE | KW_WITH | KW_UNIQUE | KW_AND | KW_OR | KW_XOR
  | KW_POSEDGE | KW_NEGEDGE | KW_EDGE | KW_IFF
  | LPAREN | RPAREN | LSQUARE_BR | RSQUARE_BR | LBRACE | RBRACE | APOSTROPHE | APOSTROPHE_LBRACE | COMMA | DOT | COLON
  | DOUBLE_COLON | SEMI | HASH | AT | QUESTIONMARK
  | PLUS | MINUS | NOT | NEG | AMPERSAND | NAND | BAR | NOR | XOR | NXOR | XORN | INCR | DECR | DOUBLESTAR | MUL | DIV | MOD
  | SHIFT_LEFT | SHIFT_RIGHT | ARITH_SHIFT_LEFT | ARITH_SHIFT_RIGHT | LT | LE | GT | GE | EQ | NE | CASE_EQ | CASE_NE
  | WILDCARD_EQ | WILDCARD_NE | AND_LOG | OR_LOG | TRIPLE_AND | ARROW | BI_DIR_ARROW
  | ASSIGN | PLUS_ASSIGN | MINUS_ASSIGN | MUL_ASSIGN | DIV_ASSIGN | MOD_ASSIGN | AND_ASSIGN | OR_ASSIGN | XOR_ASSIGN
  | SHIFT_LEFT_ASSIGN | SHIFT_RIGHT_ASSIGN | ARITH_SHIFT_LEFT_ASSIGN | ARITH_SHIFT_RIGHT_ASSIGN
  | KW_IF | KW_ELSE | KW_BEGIN | KW_END | KW_FORK | KW_JOIN | KW_JOIN_ANY | KW_JOIN_NONE | KW_CASE | KW_CASEZ | KW_CASEX | KW_ENDCASE
  | KW_FOR | KW_FOREVER | KW_FOREACH | KW_REPEAT | KW_WHILE | KW_DO | KW_RETURN | KW_BREAK | KW_CONTINUE | KW_VOID | KW_DISABLE
  | KW_WAIT | KW_WAIT_ORDER | KW_RANDCASE | KW_ASSIGN | KW_DEASSIGN | KW_FORCE | KW_RELEASE | KW_NEW | KW_VAR | KW_STATIC
  | KW_AUTOMATIC | KW_UNIQUE0 | KW_PRIORITY | KW_LOCALPARAM | KW_PARAMETER | KW_TYPEDEF | KW_IMPORT | KW_LET | KW_NETTYPE | KW_1STEP
  | DOUBLE_HASH | DOUBLE_RIGHT_ARROW
  | KW_INITIAL | KW_ALWAYS | KW_ALWAYS_COMB | KW_ALWAYS_FF | KW_ALWAYS_LATCH | KW_GENVAR | KW_GENERATE | KW_ENDGENERATE | KW_RAND
  | KW_MODULE | KW_MACROMODULE | KW_ENDMODULE | KW_EXTERN | KW_INPUT | KW_OUTPUT | KW_INOUT | KW_REF | KW_INTERCONNECT
  | KW_SUPPLY0 | KW_SUPPLY1 | KW_TRI | KW_TRIAND | KW_TRIOR | KW_TRIREG | KW_TRI0 | KW_TRI1 | KW_UWIRE | KW_WIRE | KW_WAND | KW_WOR | KW_VECTORED | KW_SCALARED
  | OTHER
deriving DecidableEq, Repr

/-- A token: its type and its text. -/
structure STok where
  ty : ST
  text : Str
deriving DecidableEq, Repr

end Verif.Sv
