import Verif.Sv.Token
/-!
# Tokens of the SystemVerilog lexer (grammars/sv2017Lexer.g4)
-/
namespace Verif.Sv

/-- Token types. The types of keywords (`KW_...`) and of symbols are named by their text here, the name in the grammar is determined by it. -/
inductive LTy
  | kw (s : Str)
  | sym (s : Str)
  | EDGE_CONTROL_SPECIFIER | TIME_LITERAL | ANY_BASED_NUMBER | BASED_NUMBER_WITH_SIZE | REAL_NUMBER_WITH_EXP | FIXED_POINT_NUMBER
  | UNSIGNED_NUMBER | UNBASED_UNSIZED_LITERAL | STRING_LITERAL | C_IDENTIFIER | ESCAPED_IDENTIFIER | SIMPLE_IDENTIFIER
  | SYSTEM_TF_IDENTIFIER | ONE_LINE_COMMENT | BLOCK_COMMENT | WHITE_SPACE | LEVEL_SYMBOL | EDGE_SYMBOL
deriving DecidableEq, Repr

/-- A token of the lexer on the default channel. -/
structure LTok where
  ty : LTy
  text : Str
deriving DecidableEq, Repr

end Verif.Sv
