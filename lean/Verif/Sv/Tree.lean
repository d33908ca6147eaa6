import Verif.Literals
/-!
# Parse trees of SystemVerilog expressions and data types

One inductive type per rule of grammars/sv2017Parser.g4, as far as the visitors of src/svConvertor look at it. Attribute instances
in front of operators are left out: the visitors attach them to the expression object, but the conversion to Python
(hdlConvertor/toPy_expr.cpp) does not export attributes of expressions. The content of a construct is left out if the visitor
replaces the whole construct by `HdlExprNotImplemented` without looking at it.
-/
namespace Verif.Sv
open Verif

/-- Rule `identifier` (grammars/sv2017Parser.g4): `esc` if the token is an `ESCAPED_IDENTIFIER`; `text` is the text of the token. -/
structure Ident where
  esc : Bool
  text : Str
deriving DecidableEq, Repr

/-- Rules `unary_operator`, `unary_module_path_operator`. -/
inductive UnOp
  | plus | minus | not | neg | and | nand | or | nor | xor | nxor | xorn
deriving DecidableEq, Repr

/-- The binary operators of the rule `expression` without `&&&`. -/
inductive BinOp
  | pow | mul | div | mod | add | sub | shl | shr | ashl | ashr | lt | le | gt | ge | eq | ne | caseEq | caseNe | wildEq | wildNe
  | and | xor | nxor | xorn | or | andLog | orLog | impl | equiv
deriving DecidableEq, Repr

/-- Rule `primary_literal`, with `number`, `real_number`. -/
inductive Lit
  | time (t : Str)
  | unbased (t : Str)
  | str (t : Str)
  | integral (n : IntegralCtx)
  | real (t : Str)
  | null
  | this
  | dolar
deriving DecidableEq, Repr

/-- Rule `signing` or its absence. -/
inductive Sign
  | none | signed | unsigned
deriving DecidableEq, Repr

/-- The head of the rule `package_or_class_scoped_path`: `items` if the path starts with a `package_or_class_scoped_path_item`. -/
inductive PathHead
  | root | this | thisSuper | super | unit | items
deriving DecidableEq, Repr

/-- Rule `data_type_primitive`. -/
inductive DPrim
  | vec (kw : Str) (s : Sign)
  | atom (kw : Str) (s : Sign)
  | nonInt (kw : Str)
deriving DecidableEq, Repr

mutual
/-- Rule `expression`. -/
inductive Exp
  | prim (p : Prim)
  | opAssign
  | tagged
  | unary (o : UnOp) (p : Prim)
  | incDec (pre : Bool) (inc : Bool) (l : LVal)
  | bin (a : Exp) (o : BinOp) (b : Exp)
  /-- `expression ( KW_MATCHES pattern )? TRIPLE_AND expression ( KW_MATCHES pattern )?` -/
  | tripleAnd (a : Exp) (m1 : Bool) (b : Exp) (m2 : Bool)
  | inside (e : Exp)
  /-- `matches_`: with `KW_MATCHES pattern` -/
  | cond (c : Exp) (matches_ : Bool) (t : Exp) (e : Exp)
/-- Rule `primary`. -/
inductive Prim
  | lit (l : Lit)
  | path (p : Path)
  | par (m : MTM)
  | cast
  | cast2 (p : Prim) (e : Exp)
  | bitSel (p : Prim) (e : Exp)
  | dot (p : Prim) (i : Ident)
  | index (p : Prim) (r : ARange)
  | concat (c : Concat)
  | streaming
  /-- `any_system_tf_identifier`, no parentheses -/
  | tfCall0 (f : Str)
  /-- `( LPAREN list_of_arguments ( COMMA clocking_event )? RPAREN )` -/
  | tfCall (f : Str) (args : List Arg) (clk : Bool)
  /-- `( LPAREN data_type (COMMA list_of_arguments)? ( COMMA clocking_event )? RPAREN )` -/
  | tfCallT (f : Str) (t : DType) (args : List Arg) (clk : Bool)
  | randomize
  | randomize2
  | assig (typed : Bool) (a : Pattern)
  | typeRef (t : TRef)
  /-- `list_of_arguments` absent -/
  | call0 (p : Prim) (method : Option Str) (with_ : Bool)
  | call (p : Prim) (method : Option Str) (args : List Arg) (with_ : Bool)
  | methodNoArgs (p : Prim) (method : Str)
  | callWith (p : Prim) (method : Option Str) (e : Exp)
/-- Rule `mintypmax_expression`. -/
inductive MTM
  | one (e : Exp)
  | three (mn : Exp) (tp : Exp) (mx : Exp)
/-- Rule `array_range_expression`; also the rule `range_expression` (only `one` and `range`). -/
inductive ARange
  | one (e : Exp)
  | range (a b : Exp)
  | plus (a b : Exp)
  | minus (a b : Exp)
/-- Rule `concatenation`. -/
inductive Concat
  | list (l : List Exp)
  | repl (n : Exp) (c : Concat)
/-- Rule `package_or_class_scoped_path`; `loc`: with `KW_LOCAL DOUBLE_COLON`. -/
inductive Path
  | mk (loc : Bool) (h : PathHead) (items : List PathItem)
/-- Rule `package_or_class_scoped_path_item`. -/
inductive PathItem
  | mk (i : Ident) (p : PVA)
/-- Rule `parameter_value_assignment` or its absence; `ordered []` is `#()`. -/
inductive PVA
  | none
  | ordered (l : List PExpr)
  | named (l : List NamedP)
/-- Rule `param_expression`. -/
inductive PExpr
  | mtm (m : MTM)
  | type (t : DType)
/-- Rule `named_parameter_assignment`. -/
inductive NamedP
  | empty (i : Ident)
  | val (i : Ident) (e : PExpr)
/-- Rule `data_type`. -/
inductive DType
  | string
  | chandle
  | virtual (i : Ident) (p : PVA) (modport : Option Ident)
  | event
  | prim (p : DPrim) (dims : List VDim)
  | enum (dims : List VDim)
  | struct (dims : List VDim)
  | path (p : Path) (dims : List VDim)
  | typeRef (t : TRef)
/-- Rule `variable_dimension`. -/
inductive VDim
  | empty
  | star
  | type (t : DType)
  | range (r : ARange)
/-- Rule `type_reference`. -/
inductive TRef
  | expr (e : Exp)
  | type (t : DType)
/-- Rule `assignment_pattern`: `list []` is `'{}`; `keyed` with `structure_pattern_key`s or `array_pattern_key`s. -/
inductive Pattern
  | list (l : List Exp)
  | keyed (l : List KV)
  | repl (n : Exp) (l : List Exp)
/-- One `key COLON expression` of an assignment pattern. -/
inductive KV
  | mk (k : Key) (e : Exp)
/-- Rules `structure_pattern_key`, `array_pattern_key`, `assignment_pattern_key`. -/
inductive Key
  | ident (i : Ident)
  | dflt
  | intType
  | nonIntType
  | path (p : Path)
  | expr (e : Exp)
/-- Rule `variable_lvalue`. -/
inductive LVal
  | brace (l : List LVal)
  | hier (h : HSel)
  | pattern
  | streaming
/-- Rule `package_or_class_scoped_hier_id_with_select`. -/
inductive HSel
  | mk (p : Path) (bits : List Exp) (members : List Member) (sel : Sel)
/-- `DOT identifier_with_bit_select`. -/
inductive Member
  | mk (i : Ident) (bits : List Exp)
/-- The range at the end of the rule `package_or_class_scoped_hier_id_with_select` or its absence. -/
inductive Sel
  | none
  | range (a b : Exp)
  | plus (a b : Exp)
  | minus (a b : Exp)
/-- A child of `list_of_arguments`. -/
inductive Arg
  | comma
  | expr (e : Exp)
  /-- `DOT identifier LPAREN RPAREN` -/
  | namedEmpty (i : Ident)
  | named (i : Ident) (e : Exp)
end

/-- Rule `cond_predicate`: the first expression, whether a pattern follows it, and the others. -/
structure CondPred where
  head : Exp
  matches_ : Bool
  rest : List (Exp × Bool)

/-- Rule `assignment_operator`. -/
inductive AssignOp
  | assign | plus | minus | mul | div | mod | and | or | xor | shl | shr | ashl | ashr
deriving DecidableEq, Repr

/-- Rule `operator_assignment`. -/
structure OpAssign where
  dst : LVal
  op : AssignOp
  src : Exp

/-- Rule `identifier_with_bit_select` in `hierarchical_identifier: ( KW_DOLAR_ROOT DOT )? ( identifier_with_bit_select DOT )* identifier`. -/
structure HierId where
  root : Bool
  parts : List (Ident × List Exp)
  last : Ident

/-- Rule `implicit_data_type`: signing and packed dimensions (`none`: an empty dimension `[]`). -/
structure ImplType where
  sign : Sign
  dims : List (Option ARange)

/-- Rule `data_type_or_implicit`. -/
inductive DTypeOrImpl
  | type (t : DType)
  | impl (t : ImplType)

end Verif.Sv
