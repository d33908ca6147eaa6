import Verif.CppString
/-!
# Model of the expression part of the AST (include/hdlConvertor/hdlAst, src/hdlAst)

A `std::unique_ptr<iHdlExprItem>` is an `Expr`; the null pointer is `Expr.null`. Attributes (`hdlAttributes`) of expression
objects (set by src/svConvertor/exprParser.cpp for operator attributes) are never exported to Python and are left out. A `double` is represented by the text it was read from.
-/
namespace Verif

/-- include/hdlConvertor/hdlAst/hdlOpType.h 6-115 (`enum HdlOpType`), in the order of the header. -/
inductive OpType
  | MINUS_UNARY | PLUS_UNARY | SUB | ADD | DIV | MUL | MOD | REM | POW | ABS | INCR_PRE | DECR_PRE
  | INCR_POST | DECR_POST | NEG_LOG | NEG | AND_LOG | OR_LOG | AND | OR | NAND | NOR | XOR | XNOR | OR_UNARY
  | AND_UNARY | NAND_UNARY | NOR_UNARY | XOR_UNARY | XNOR_UNARY | SLL | SRL | SLA | SRA | ROL | ROR | EQ | NE
  | IS | IS_NOT | LT | LE | GT | GE | EQ_MATCH | NE_MATCH | LT_MATCH | LE_MATCH | GT_MATCH | GE_MATCH | INDEX
  | CONCAT | REPL_CONCAT | PART_SELECT_POST | PART_SELECT_PRE | DOT | DOUBLE_COLON | APOSTROPHE | ARROW
  | REFERENCE | DEREFERENCE | ASSIGN | PLUS_ASSIGN | MINUS_ASSIGN | MUL_ASSIGN | DIV_ASSIGN | MOD_ASSIGN
  | AND_ASSIGN | OR_ASSIGN | XOR_ASSIGN | SHIFT_LEFT_ASSIGN | SHIFT_RIGHT_ASSIGN | ARITH_SHIFT_LEFT_ASSIGN
  | ARITH_SHIFT_RIGHT_ASSIGN | TERNARY | CALL | RISING | FALLING | DOWNTO | TO | PARAMETRIZATION
  | MAP_ASSOCIATION | RANGE | THROUGHOUT | DEFINE_RESOLVER | TYPE_OF | UNIT_SPEC
deriving DecidableEq, Repr

/-- The numeric value of the enumerator. -/
def OpType.code (o : OpType) : Nat := o.ctorIdx

/-- src/hdlAst/hdlOpType.cpp 8-96. -/
def opTypeToStr : List Str := [
    c! "MINUS_UNARY", c! "PLUS_UNARY", c! "SUB", c! "ADD", c! "DIV", c! "MUL", c! "MOD", c! "REM", c! "POW",
    c! "ABS", c! "INCR_PRE", c! "DECR_PRE", c! "INCR_POST", c! "DECR_POST", c! "NEG_LOG", c! "NEG",
    c! "AND_LOG", c! "OR_LOG", c! "AND", c! "OR", c! "NAND", c! "NOR", c! "XOR", c! "XNOR", c! "OR_UNARY",
    c! "AND_UNARY", c! "NAND_UNARY", c! "NOR_UNARY", c! "XOR_UNARY", c! "XNOR_UNARY", c! "SLL", c! "SRL",
    c! "SLA", c! "SRA", c! "ROL", c! "ROR", c! "EQ", c! "NE", c! "IS", c! "IS_NOT", c! "LT", c! "LE",
    c! "GT", c! "GE", c! "EQ_MATCH", c! "NE_MATCH", c! "LT_MATCH", c! "LE_MATCH", c! "GT_MATCH",
    c! "GE_MATCH", c! "INDEX", c! "CONCAT", c! "REPL_CONCAT", c! "PART_SELECT_POST", c! "PART_SELECT_PRE",
    c! "DOT", c! "DOUBLE_COLON", c! "APOSTROPHE", c! "ARROW", c! "REFERENCE", c! "DEREFERENCE", c! "ASSIGN",
    c! "PLUS_ASSIGN", c! "MINUS_ASSIGN", c! "MUL_ASSIGN", c! "DIV_ASSIGN", c! "MOD_ASSIGN", c! "AND_ASSIGN",
    c! "OR_ASSIGN", c! "XOR_ASSIGN", c! "SHIFT_LEFT_ASSIGN", c! "SHIFT_RIGHT_ASSIGN",
    c! "ARITH_SHIFT_LEFT_ASSIGN", c! "ARITH_SHIFT_RIGHT_ASSIGN", c! "TERNARY", c! "CALL", c! "RISING",
    c! "FALLING", c! "DOWNTO", c! "TO", c! "PARAMETRIZATION", c! "MAP_ASSOCIATION", c! "RANGE",
    c! "THROUGHOUT", c! "DEFINE_RESOLVER", c! "TYPE_OF", c! "UNIT_SPEC"]

/-- src/hdlAst/hdlOpType.cpp 122-126 (`HdlOpType_toString`); reading the array behind its end is undefined. -/
def OpType.toString (o : OpType) : Except Exc Str :=
  if o.code > OpType.UNIT_SPEC.code then .error (.runtime (c! "Invalid operator type"))
  else match opTypeToStr[o.code]? with
    | some s => .ok s
    | none => .error .ub

/-- src/hdlAst/hdlOpType.cpp 99-120 (`HdlOpType_toUnary`). -/
def OpType.toUnary : OpType → Except Exc OpType
  | .SUB => .ok .MINUS_UNARY
  | .ADD => .ok .PLUS_UNARY
  | .OR => .ok .OR_UNARY
  | .AND => .ok .AND_UNARY
  | .NAND => .ok .NAND_UNARY
  | .NOR => .ok .NOR_UNARY
  | .XOR => .ok .XOR_UNARY
  | .XNOR => .ok .XNOR
  | _ => .error (.runtime (c! "Invalid operator type"))

/-- include/hdlConvertor/hdlAst/hdlValue.h 85-93 (`enum HdlValueSymbol_t`). -/
inductive Symb
  | NULL | OPEN | ALL | OTHERS | T | T_AUTO | T_SUBTYPE
deriving DecidableEq, Repr

/-- include/hdlConvertor/hdlAst/codePosition.h 13-37. `none` is the position whose four numbers are `INVALID`. -/
structure CodePos where
  startLine : Nat
  stopLine : Nat
  startCol : Nat
  stopCol : Nat
deriving DecidableEq, Repr

/-- include/hdlConvertor/hdlAst/bigInteger.h 16-33 (`BigInteger`): `base = -1` (`INVALID_BASE`): `val` is used,
else `bitstring`. -/
structure BigInt where
  val : Int
  bitstring : Str
  base : Int
deriving DecidableEq, Repr

/-- src/hdlAst/bigInteger.cpp 6-8. -/
def BigInt.ofInt (v : Int) : BigInt := ⟨v, [], -1⟩

/-- src/hdlAst/bigInteger.cpp 10-12. -/
def BigInt.ofStr (s : Str) (base : Int) : BigInt := ⟨0, s, base⟩

/-- include/hdlConvertor/hdlAst/hdlValue.h 47-60 (`HdlValueInt`) without the position. -/
structure IntVal where
  bits : Int
  int : BigInt
deriving DecidableEq, Repr

/-- src/hdlAst/hdlValue.cpp 41-43. -/
def IntVal.ofBig (v : BigInt) : IntVal := ⟨-1, v⟩

/-- src/hdlAst/hdlValue.cpp 48-50. -/
def IntVal.ofStr (s : Str) (radix : Int) : IntVal := ⟨-1, .ofStr s radix⟩

/-- src/hdlAst/hdlValue.cpp 52-54. -/
def IntVal.ofStrBits (s : Str) (bits radix : Int) : IntVal := ⟨bits, .ofStr s radix⟩

/-- include/hdlConvertor/hdlAst/hdlTypes.h 34-38. -/
inductive ClassKind
  | CLASS | STRUCT | UNION | INTERFACE
deriving DecidableEq, Repr

/-- Objects derived from `iHdlExprItem` (hdlValue.h, hdlOp.h, hdlTypes.h); `pos = none`: unknown position.
The pairs (name, value) of `HdlEnumDef::values` and `HdlPhysicalDef::members` are two parallel lists. Of the members of a class
only those that are expressions are kept. -/
inductive Expr
  | null
  | id (pos : Option CodePos) (s : Str)
  | int (pos : Option CodePos) (v : IntVal)
  | float (pos : Option CodePos) (text : Str)
  | str (pos : Option CodePos) (s : Str)
  | symb (pos : Option CodePos) (k : Symb)
  | arr (pos : Option CodePos) (items : List Expr)
  | op (pos : Option CodePos) (o : OpType) (args : List Expr)
  | notImpl (pos : Option CodePos)
  | enumDef (pos : Option CodePos) (doc : Str) (baseType : Expr) (names : List (Option Str)) (values : List Expr)
  | physDef (pos : Option CodePos) (doc : Str) (range : Expr) (names : List Str) (values : List Expr)
  | classDef (pos : Option CodePos) (doc : Str) (baseTypes : List Expr) (kind : ClassKind) (members : List Expr)
      (packed virt : Bool)

mutual
/-- The `clone` methods: hdlValue.cpp 13-18, 26-28, 35-37, 56-58, 65-67, 74-76, 104-106, 110-112, hdlOp.cpp 15-21, 111-113,
hdlTypes.cpp 20-28 (throws), 32-45, 49-64. The user-written copy constructors initialise the (virtual) base with the default
constructor, so position and doc are not copied; `HdlEnumDef` does not copy `base_type`. `clone` of a null pointer is undefined. -/
def Expr.clone : Expr → Except Exc Expr
  | .null => .error .ub
  | .id p s => .ok (.id p s)
  | .int p v => .ok (.int p v)
  | .float p t => .ok (.float p t)
  | .str p s => .ok (.str p s)
  | .symb _ k => .ok (.symb none k)
  | .arr _ l => do
    let l ← cloneList l
    return .arr none l
  | .op _ o l => do
    let l ← cloneList l
    return .op none o l
  | .notImpl _ => .ok (.notImpl none)
  | .enumDef _ _ _ ns vs => do
    let vs ← cloneListOpt vs
    return .enumDef none [] .null ns vs
  | .physDef _ _ r ns vs => do
    let r ← Expr.clone r
    let vs ← cloneListOpt vs
    return .physDef none [] r ns vs
  | .classDef .. => .error (.runtime (c! "HdlClassDef copy constructor not implemented"))
/-- hdlValue.h 143-150 (`clone_unique_ptr_vector`) and the loop of hdlOp.cpp 17-19. -/
def cloneList : List Expr → Except Exc (List Expr)
  | [] => .ok []
  | e :: l => do
    let e ← Expr.clone e
    let l ← cloneList l
    return e :: l
/-- The loops of hdlTypes.cpp 35-41, 50-60: null values stay null. -/
def cloneListOpt : List Expr → Except Exc (List Expr)
  | [] => .ok []
  | e :: l => do
    let e ← (match e with
      | .null => .ok .null
      | e => Expr.clone e)
    let l ← cloneListOpt l
    return e :: l
end

/-- src/hdlAst/hdlOp.cpp 23-27. -/
def Expr.mkUn (p : Option CodePos) (o : OpType) (a : Expr) : Expr := .op p o [a]

/-- A non-null pointer as a one element list. -/
def Expr.push : Expr → List Expr
  | .null => []
  | e => [e]

/-- src/hdlAst/hdlOp.cpp 29-38: null operands are skipped. -/
def Expr.mkBin (p : Option CodePos) (a : Expr) (o : OpType) (b : Expr) : Expr := .op p o (a.push ++ b.push)

/-- src/hdlAst/hdlOp.cpp 47-57, 91-95. -/
def Expr.mkCall (p : Option CodePos) (f : Expr) (args : List Expr) : Expr := .op p .CALL (f :: args)

/-- src/hdlAst/hdlOp.cpp 40-45, 96-100. -/
def Expr.mkIndex (p : Option CodePos) (f : Expr) (args : List Expr) : Expr := .op p .INDEX (f :: args)

/-- src/hdlAst/hdlOp.cpp 59-69, 101-106. -/
def Expr.mkParam (p : Option CodePos) (f : Expr) (args : List Expr) : Expr := .op p .PARAMETRIZATION (f :: args)

/-- src/hdlAst/hdlOp.cpp 71-83, 85-90: a null `ifFalse` is left out. -/
def Expr.mkTernary (p : Option CodePos) (c t e : Expr) : Expr := .op p .TERNARY ([c, t] ++ e.push)

end Verif
