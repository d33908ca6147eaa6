import Verif.CppString
/-!
# Tokens of VHDL (grammars/vhdlLexer.g4)
-/
namespace Verif.Vhdl

/-- The keywords, vhdlLexer.g4 76-181, in the order of the file. -/
inductive Kw
  | PROCESS | CONTEXT | POSTPONED | LINKAGE | COMPONENT | ABS | DEFAULT | THEN | BLOCK | REM | INERTIAL | NEXT
  | ENTITY | ON | GROUP | XNOR | FILE | PURE | GUARDED | GENERIC | RANGE | ELSE | USE | SHARED | MOD | LOOP | RECORD
  | SIGNAL | REJECT | BEGIN | SLA | DISCONNECT | OF | PROCEDURE | SRL | VUNIT | ATTRIBUTE | VARIABLE | PROPERTY
  | UNAFFECTED | XOR | REGISTER | SUBTYPE | TO | NEW | REPORT | CONSTANT | BUFFER | BODY | AFTER | TRANSPORT
  | FUNCTION | END | SELECT | OR | LIBRARY | ELSIF | SLL | MAP | SRA | PROTECTED | DOWNTO | LABEL | ALL | ALIAS
  | GENERATE | NOR | IN | RELEASE | EXIT | RETURN | WITH | UNTIL | AND | INOUT | WAIT | NAND | ARRAY | FORCE | WHILE
  | IMPURE | PACKAGE | UNITS | ASSERT | PARAMETER | SEVERITY | LITERAL | FOR | ROR | IF | OUT | ROL | IS | SEQUENCE
  | OTHERS | TYPE | CASE | NOT | CONFIGURATION | OPEN | ARCHITECTURE | BUS | ACCESS | WHEN | PORT | NULL
deriving DecidableEq, Repr

/-- All keywords in the order of the rules. -/
def Kw.all : List Kw := [
  .PROCESS, .CONTEXT, .POSTPONED, .LINKAGE, .COMPONENT, .ABS, .DEFAULT, .THEN, .BLOCK, .REM, .INERTIAL, .NEXT,
  .ENTITY, .ON, .GROUP, .XNOR, .FILE, .PURE, .GUARDED, .GENERIC, .RANGE, .ELSE, .USE, .SHARED, .MOD, .LOOP, .RECORD,
  .SIGNAL, .REJECT, .BEGIN, .SLA, .DISCONNECT, .OF, .PROCEDURE, .SRL, .VUNIT, .ATTRIBUTE, .VARIABLE, .PROPERTY,
  .UNAFFECTED, .XOR, .REGISTER, .SUBTYPE, .TO, .NEW, .REPORT, .CONSTANT, .BUFFER, .BODY, .AFTER, .TRANSPORT,
  .FUNCTION, .END, .SELECT, .OR, .LIBRARY, .ELSIF, .SLL, .MAP, .SRA, .PROTECTED, .DOWNTO, .LABEL, .ALL, .ALIAS,
  .GENERATE, .NOR, .IN, .RELEASE, .EXIT, .RETURN, .WITH, .UNTIL, .AND, .INOUT, .WAIT, .NAND, .ARRAY, .FORCE, .WHILE,
  .IMPURE, .PACKAGE, .UNITS, .ASSERT, .PARAMETER, .SEVERITY, .LITERAL, .FOR, .ROR, .IF, .OUT, .ROL, .IS, .SEQUENCE,
  .OTHERS, .TYPE, .CASE, .NOT, .CONFIGURATION, .OPEN, .ARCHITECTURE, .BUS, .ACCESS, .WHEN, .PORT, .NULL]

/-- The letters of a keyword, vhdlLexer.g4 76-181 (`KW_IF: I F`), in lower case. -/
def Kw.text : Kw → Str
  | .PROCESS => c! "process" | .CONTEXT => c! "context" | .POSTPONED => c! "postponed" | .LINKAGE => c! "linkage"
  | .COMPONENT => c! "component" | .ABS => c! "abs" | .DEFAULT => c! "default" | .THEN => c! "then"
  | .BLOCK => c! "block" | .REM => c! "rem" | .INERTIAL => c! "inertial" | .NEXT => c! "next"
  | .ENTITY => c! "entity" | .ON => c! "on" | .GROUP => c! "group" | .XNOR => c! "xnor" | .FILE => c! "file"
  | .PURE => c! "pure" | .GUARDED => c! "guarded" | .GENERIC => c! "generic" | .RANGE => c! "range"
  | .ELSE => c! "else" | .USE => c! "use" | .SHARED => c! "shared" | .MOD => c! "mod" | .LOOP => c! "loop"
  | .RECORD => c! "record" | .SIGNAL => c! "signal" | .REJECT => c! "reject" | .BEGIN => c! "begin"
  | .SLA => c! "sla" | .DISCONNECT => c! "disconnect" | .OF => c! "of" | .PROCEDURE => c! "procedure"
  | .SRL => c! "srl" | .VUNIT => c! "vunit" | .ATTRIBUTE => c! "attribute" | .VARIABLE => c! "variable"
  | .PROPERTY => c! "property" | .UNAFFECTED => c! "unaffected" | .XOR => c! "xor" | .REGISTER => c! "register"
  | .SUBTYPE => c! "subtype" | .TO => c! "to" | .NEW => c! "new" | .REPORT => c! "report"
  | .CONSTANT => c! "constant" | .BUFFER => c! "buffer" | .BODY => c! "body" | .AFTER => c! "after"
  | .TRANSPORT => c! "transport" | .FUNCTION => c! "function" | .END => c! "end" | .SELECT => c! "select"
  | .OR => c! "or" | .LIBRARY => c! "library" | .ELSIF => c! "elsif" | .SLL => c! "sll" | .MAP => c! "map"
  | .SRA => c! "sra" | .PROTECTED => c! "protected" | .DOWNTO => c! "downto" | .LABEL => c! "label"
  | .ALL => c! "all" | .ALIAS => c! "alias" | .GENERATE => c! "generate" | .NOR => c! "nor" | .IN => c! "in"
  | .RELEASE => c! "release" | .EXIT => c! "exit" | .RETURN => c! "return" | .WITH => c! "with"
  | .UNTIL => c! "until" | .AND => c! "and" | .INOUT => c! "inout" | .WAIT => c! "wait" | .NAND => c! "nand"
  | .ARRAY => c! "array" | .FORCE => c! "force" | .WHILE => c! "while" | .IMPURE => c! "impure"
  | .PACKAGE => c! "package" | .UNITS => c! "units" | .ASSERT => c! "assert" | .PARAMETER => c! "parameter"
  | .SEVERITY => c! "severity" | .LITERAL => c! "literal" | .FOR => c! "for" | .ROR => c! "ror" | .IF => c! "if"
  | .OUT => c! "out" | .ROL => c! "rol" | .IS => c! "is" | .SEQUENCE => c! "sequence" | .OTHERS => c! "others"
  | .TYPE => c! "type" | .CASE => c! "case" | .NOT => c! "not" | .CONFIGURATION => c! "configuration"
  | .OPEN => c! "open" | .ARCHITECTURE => c! "architecture" | .BUS => c! "bus" | .ACCESS => c! "access"
  | .WHEN => c! "when" | .PORT => c! "port" | .NULL => c! "null"

/-- The token types of vhdlLexer.g4 76-263 that are no fragments. -/
inductive VT
  | kw (k : Kw)
  | BASIC_IDENTIFIER | EXTENDED_IDENTIFIER | DECIMAL_LITERAL | INTEGER | BASED_LITERAL | CHARACTER_LITERAL
  | STRING_LITERAL | BIT_STRING_LITERAL | COMMENT | BLOCK_COMMENT | TAB | SPACE | NEWLINE | CR | SPACE_CHARACTER
  | DBLQUOTE | UNDERSCORE | DIGIT | SEMI | LPAREN | RPAREN | LSQUARE_BR | RSQUARE_BR | APOSTROPHE | SHIFT_LEFT
  | SHIFT_RIGHT | AT | HASHTAG | COMMA | DOT | QUESTIONMARK | COLON | EQ | NE | LT | GT | GE | EQ_MATCH | NE_MATCH
  | LT_MATCH | LE_MATCH | GT_MATCH | GE_MATCH | PLUS | MINUS | AMPERSAND | BAR | BACKSLASH | MUL | DIV | DOUBLESTAR
  | CONASGN | GRAVE_ACCENT | UP | VARASGN | BOX | ARROW | COND_OP
deriving DecidableEq, Repr

/-- A token: its type and its text. -/
structure VTok where
  ty : VT
  text : Str
deriving DecidableEq, Repr

end Verif.Vhdl
