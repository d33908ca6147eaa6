import Verif.Sv.Tree
/-!
# Model of the SystemVerilog expression visitors

src/svConvertor/{exprParser,exprPrimaryParser,literalParser,utils}.cpp, the data type part of typeParser.cpp, and the parameter
values of moduleInstanceParser.cpp. Code positions of expressions are not exported to Python and left out (`none`), except that the
position of `HdlExprNotImplemented` is exported but left out here too. A failing `assert` is `Exc.ub`: with `NDEBUG` the behaviour is
undefined, without it the process is aborted. The order in which C++ evaluates independent parts only decides which of two exceptions
is reported.
-/
namespace Verif.Sv
open Verif

/-- exprParser.cpp 381-398 (`getIdentifierStr`), literalParser.cpp 118-122. -/
def identStr (i : Ident) : Except Exc Str := if i.esc then svEscapedId i.text else .ok i.text

/-- exprParser.cpp 400-403. -/
def visitIdent (i : Ident) : Except Exc Expr := do
  let s ← identStr i
  return .id none s

/-- literalParser.cpp 141-191. -/
def UnOp.toOp : UnOp → OpType
  | .plus => .PLUS_UNARY | .minus => .MINUS_UNARY | .not => .NEG_LOG | .neg => .NEG | .and => .AND_UNARY | .nand => .NAND_UNARY
  | .or => .OR_UNARY | .nor => .NOR_UNARY | .xor => .XOR_UNARY | .nxor => .XNOR_UNARY | .xorn => .XNOR_UNARY

/-- exprParser.cpp 243-303, literalParser.cpp 192-312. -/
def BinOp.toOp : BinOp → OpType
  | .pow => .POW | .mul => .MUL | .div => .DIV | .mod => .MOD | .add => .ADD | .sub => .SUB
  | .shl => .SLL | .shr => .SRL | .ashl => .SLA | .ashr => .SRA | .lt => .LT | .le => .LE | .gt => .GT | .ge => .GE
  | .eq => .EQ | .ne => .NE | .caseEq => .IS | .caseNe => .IS_NOT | .wildEq => .EQ_MATCH | .wildNe => .NE_MATCH
  | .and => .AND | .xor => .XOR | .nxor => .XNOR | .xorn => .XNOR | .or => .OR | .andLog => .AND_LOG | .orLog => .OR_LOG
  | .impl => .ARROW | .equiv => .ARROW

/-- literalParser.cpp 314-362. -/
def AssignOp.toOp : AssignOp → OpType
  | .assign => .ASSIGN | .plus => .PLUS_ASSIGN | .minus => .MINUS_ASSIGN | .mul => .MUL_ASSIGN | .div => .DIV_ASSIGN
  | .mod => .MOD_ASSIGN | .and => .AND_ASSIGN | .or => .OR_ASSIGN | .xor => .XOR_ASSIGN | .shl => .SHIFT_LEFT_ASSIGN
  | .shr => .SHIFT_RIGHT_ASSIGN | .ashl => .ARITH_SHIFT_LEFT_ASSIGN | .ashr => .ARITH_SHIFT_RIGHT_ASSIGN

/-- literalParser.cpp 434-451. -/
def incDecOp (pre inc : Bool) : OpType :=
  match pre, inc with
  | true, true => .INCR_PRE
  | true, false => .DECR_PRE
  | false, true => .INCR_POST
  | false, false => .DECR_POST

/-- literalParser.cpp 364-406, 97-140. A real number is kept as its text (`stod` is not modelled). -/
def visitLit : Lit → Except Exc Expr
  | .time _ => .ok (.notImpl none)
  | .unbased t => do
    let v ← svUnbased t
    return .int none v
  | .str t => do
    let s ← svString t
    return .str none s
  | .integral n => do
    let v ← svIntegral n
    return .int none v
  | .real t => .ok (.float none t)
  | .null => .ok (.symb none .NULL)
  | .this => .ok (.id none (c! "this"))
  | .dolar => .ok (.id none (c! "$"))

/-- utils.cpp 51-61 (`append_expr`). -/
def appendExpr (sel : Expr) (o : OpType) (e : Expr) : Expr :=
  match sel with
  | .null => e
  | sel => .mkBin none sel o e

/-- utils.cpp 63-73 (`reduce`); also the loop of exprParser.cpp 351-358. -/
def reduceE (o : OpType) (res : Expr) : List Expr → Expr
  | [] => res
  | e :: l => reduceE o (appendExpr res o e) l

/-- utils.cpp 33-39 (`signing`): `HdlValueInt(int)` is `HdlValueInt(BigInteger(v))` (hdlValue.cpp 44-46). -/
def signE : Sign → Expr
  | .none => .symb none .NULL
  | .signed => .int none (.ofBig (.ofInt 1))
  | .unsigned => .int none (.ofBig (.ofInt 0))

/-- utils.cpp 40-49: a null `net_type` is `wire`. -/
def mkWireT (netType range : Expr) (s : Sign) : Expr :=
  .mkParam none (match netType with | .null => .id none (c! "wire") | t => t) [range, signE s]

/-- typeParser.cpp 75-122 (`visitInteger_vector_type`, `visitData_type_primitive`). -/
def visitDPrim : DPrim → Expr
  | .vec kw s => mkWireT (.id none kw) (.symb none .NULL) s
  | .atom kw .none => .id none kw
  | .atom kw s => .mkParam none (.id none kw) [.mkBin none (.id none (c! "signed")) .MAP_ASSOCIATION (signE s)]
  | .nonInt kw => .id none kw

/-- typeParser.cpp 238-256: is it a wire/reg type whose width is not filled in? -/
def isOpenWire : Expr → Bool
  | .op _ .PARAMETRIZATION [_, .symb _ .NULL, _] => true
  | _ => false

/-- typeParser.cpp 259-263: fill the width. -/
def fillWidth (d : Expr) : Expr → Expr
  | .op p .PARAMETRIZATION [t, _, s] => .op p .PARAMETRIZATION [t, (match d with | .null => .symb none .NULL | d => d), s]
  | e => e

/-- typeParser.cpp 364-370. -/
def mkDim (t d : Expr) : Expr :=
  match d with
  | .null => .mkUn none .INDEX t
  | d => .mkBin none t .INDEX d

/-- exprParser.cpp 565-587: `this.super` continues with a dot. -/
def visitHandle (sel : Expr) : PathHead → Expr
  | .this => appendExpr sel .DOUBLE_COLON (.id none (c! "this"))
  | .thisSuper => appendExpr (appendExpr sel .DOUBLE_COLON (.id none (c! "this"))) .DOT (.id none (c! "super"))
  | .super => appendExpr sel .DOUBLE_COLON (.id none (c! "super"))
  | _ => sel

/-- exprParser.cpp 600-626: what comes before the items of a path. -/
def visitPathHead (loc : Bool) (h : PathHead) : Expr :=
  let res := if loc then .id none (c! "local") else .null
  match h with
  | .root => appendExpr res .DOUBLE_COLON (.id none (c! "$root"))
  | .unit => appendExpr res .DOUBLE_COLON (.id none (c! "$unit"))
  | .items => res
  | h => visitHandle res h

mutual
/-- exprParser.cpp 152-337 (`visitExpression`, `_visitExpression`), 124-149 (`visitInc_or_dec_expression`). For `&&&` the code
reaches `assert(false)`. -/
def visitExp : Exp → Except Exc Expr
  | .prim p => visitPrim p
  | .opAssign => .ok (.notImpl none)
  | .tagged => .ok (.notImpl none)
  | .unary o p => do
    let p ← visitPrim p
    return .mkUn none o.toOp p
  | .incDec pre inc l => do
    let l ← visitLVal l
    return .mkUn none (incDecOp pre inc) l
  | .bin a o b => do
    let a ← visitExp a
    let b ← visitExp b
    return .mkBin none a o.toOp b
  | .tripleAnd _ _ _ _ => .error .ub
  | .inside _ => .ok (.notImpl none)
  | .cond c m t e =>
    if m then .ok (.notImpl none)
    else do
      let c ← visitExp c
      let t ← visitExp t
      let e ← visitExp e
      return .mkTernary none c t e
/-- exprPrimaryParser.cpp 25-471. -/
def visitPrim : Prim → Except Exc Expr
  | .lit l => visitLit l
  | .path p => visitPath p
  | .par m => visitMTM m
  | .cast => .ok (.notImpl none)
  | .cast2 p e => do
    let p ← visitPrim p
    let e ← visitExp e
    return .mkBin none p .CALL e
  | .bitSel p e => do
    let p ← visitPrim p
    let e ← visitExp e
    return appendExpr p .INDEX e
  | .dot p i => do
    let p ← visitPrim p
    let i ← visitIdent i
    return appendExpr p .DOT i
  | .index p r => do
    let p ← visitPrim p
    let r ← visitARange r
    return appendExpr p .INDEX r
  | .concat c => visitConcat c
  | .streaming => .ok (.notImpl none)
  | .tfCall0 f => .ok (.mkCall none (.id none f) [])
  | .tfCall f args _ => do
    let args ← visitArgs true args
    return .mkCall none (.id none f) args
  | .tfCallT f t args _ => do
    let t ← visitDType t
    let args ← visitArgs true args
    return .mkCall none (.id none f) (t :: args)
  | .randomize => .ok (.notImpl none)
  | .randomize2 => .ok (.notImpl none)
  | .assig _ a => visitPattern a
  | .typeRef t => visitTRef t
  | .call0 p _ _ => visitPrim p
  | .call p _ args _ => do
    let p ← visitPrim p
    let args ← visitArgs true args
    return .mkCall none p args
  | .methodNoArgs p _ => do
    let p ← visitPrim p
    return .mkCall none p []
  | .callWith p _ _ => do
    let p ← visitPrim p
    return .mkCall none p []
/-- exprParser.cpp 405-414. -/
def visitMTM : MTM → Except Exc Expr
  | .one e => visitExp e
  | .three e _ _ => visitExp e
/-- exprParser.cpp 80-105 (and 27-42 for `range_expression`). -/
def visitARange : ARange → Except Exc Expr
  | .one e => visitExp e
  | .range a b => do
    let a ← visitExp a
    let b ← visitExp b
    return .mkBin none a .DOWNTO b
  | .plus a b => do
    let a ← visitExp a
    let b ← visitExp b
    return .mkBin none a .PART_SELECT_POST b
  | .minus a b => do
    let a ← visitExp a
    let b ← visitExp b
    return .mkBin none a .PART_SELECT_PRE b
/-- exprParser.cpp 339-361. -/
def visitConcat : Concat → Except Exc Expr
  | .list l => do
    let l ← visitExps l
    return reduceE .CONCAT .null l
  | .repl n c => do
    let n ← visitExp n
    let c ← visitConcat c
    return .mkBin none n .REPL_CONCAT c
/-- The loops over `ctx->expression()`: exprParser.cpp 351-352, exprPrimaryParser.cpp 352-355. -/
def visitExps : List Exp → Except Exc (List Expr)
  | [] => .ok []
  | e :: l => do
    let e ← visitExp e
    let l ← visitExps l
    return e :: l
/-- exprParser.cpp 589-636. A path without any part fails the assertion in line 620. -/
def visitPath : Path → Except Exc Expr
  | .mk loc h items => do
    let r ← visitPathItems (visitPathHead loc h) items
    match r with
    | .null => .error .ub
    | r => return r
/-- exprParser.cpp 621-624, 631-634. -/
def visitPathItems (sel : Expr) : List PathItem → Except Exc Expr
  | [] => .ok sel
  | i :: l => do
    let r ← visitPathItem sel i
    visitPathItems r l
/-- exprParser.cpp 544-563, 531-542. -/
def visitPathItem (sel : Expr) : PathItem → Except Exc Expr
  | .mk i pva => do
    let i ← visitIdent i
    let e := appendExpr sel .DOUBLE_COLON i
    visitPVA e pva
/-- exprParser.cpp 556-561, 531-542, moduleInstanceParser.cpp 49-86, hdlOp.cpp 59-69, 101-106. -/
def visitPVA (e : Expr) : PVA → Except Exc Expr
  | .none => .ok e
  | .ordered l => do
    let l ← visitPExprs l
    return .mkParam none e l
  | .named l => do
    let l ← visitNamedPs l
    return .mkParam none e l
/-- moduleInstanceParser.cpp 63-66. -/
def visitPExprs : List PExpr → Except Exc (List Expr)
  | [] => .ok []
  | e :: l => do
    let e ← visitPExpr e
    let l ← visitPExprs l
    return e :: l
/-- paramDefParser.cpp 103-119. -/
def visitPExpr : PExpr → Except Exc Expr
  | .mtm m => visitMTM m
  | .type t => visitDType t
/-- moduleInstanceParser.cpp 69-83. -/
def visitNamedPs : List NamedP → Except Exc (List Expr)
  | [] => .ok []
  | e :: l => do
    let e ← visitNamedP e
    let l ← visitNamedPs l
    return e :: l
/-- moduleInstanceParser.cpp 69-83. -/
def visitNamedP : NamedP → Except Exc Expr
  | .empty i => do
    let i ← visitIdent i
    return .mkBin none i .MAP_ASSOCIATION (.symb none .NULL)
  | .val i e => do
    let i ← visitIdent i
    let e ← visitPExpr e
    return .mkBin none i .MAP_ASSOCIATION e
/-- typeParser.cpp 124-197. -/
def visitDType : DType → Except Exc Expr
  | .string => .ok (.id none (c! "string"))
  | .chandle => .ok (.id none (c! "chandle"))
  | .virtual i p m => do
    let t ← visitIdent i
    let t ← visitPVA t p
    match m with
    | none => return t
    | some m =>
      let m ← visitIdent m
      return .mkBin none t .DOT m
  | .event => .ok (.id none (c! "event"))
  | .prim p dims =>
    let t := visitDPrim p
    visitVDims (isOpenWire t) t dims
  | .enum dims => visitVDims false (.notImpl none) dims
  | .struct dims => visitVDims false (.notImpl none) dims
  | .path p dims => do
    let t ← visitPath p
    visitVDims (isOpenWire t) t dims
  | .typeRef t => visitTRef t
/-- typeParser.cpp 235-271 (`applyVariable_dimension`); `fill`: the width of the type is not filled in yet. -/
def visitVDims (fill : Bool) (t : Expr) : List VDim → Except Exc Expr
  | [] => .ok t
  | d :: l => do
    let d ← visitVDim d
    if fill then visitVDims false (fillWidth d t) l else visitVDims false (mkDim t d) l
/-- typeParser.cpp 336-359 (`_visitVariable_dimension`). -/
def visitVDim : VDim → Except Exc Expr
  | .empty => .ok .null
  | .star => .ok .null
  | .type t => visitDType t
  | .range r => visitARange r
/-- typeParser.cpp 18-37. -/
def visitTRef : TRef → Except Exc Expr
  | .expr e => do
    let e ← visitExp e
    return .mkUn none .TYPE_OF e
  | .type t => do
    let t ← visitDType t
    return .mkUn none .TYPE_OF t
/-- exprPrimaryParser.cpp 338-391. -/
def visitPattern : Pattern → Except Exc Expr
  | .list l => do
    let l ← visitExps l
    return .arr none l
  | .keyed l => do
    let l ← visitKVs l
    return .arr none l
  | .repl _ l => do
    let _ ← visitExps l
    return .notImpl none
/-- exprPrimaryParser.cpp 352-389. -/
def visitKVs : List KV → Except Exc (List Expr)
  | [] => .ok []
  | e :: l => do
    let e ← visitKV e
    let l ← visitKVs l
    return e :: l
/-- exprPrimaryParser.cpp 352-389. -/
def visitKV : KV → Except Exc Expr
  | .mk k e => do
    let e ← visitExp e
    let k ← visitKey k
    return .mkBin none k .MAP_ASSOCIATION e
/-- exprPrimaryParser.cpp 277-336. -/
def visitKey : Key → Except Exc Expr
  | .ident i => visitIdent i
  | .dflt => .ok (.id none (c! "default"))
  | .intType => .ok (.notImpl none)
  | .nonIntType => .ok (.notImpl none)
  | .path p => visitPath p
  | .expr e => visitExp e
/-- exprParser.cpp 416-452. An assignment pattern as target fails `assert(sc)` in line 445. -/
def visitLVal : LVal → Except Exc Expr
  | .brace l => do
    let l ← visitLVals l
    return reduceE .CONCAT .null l
  | .hier h => visitHSel h
  | .pattern => .error .ub
  | .streaming => .ok (.notImpl none)
/-- exprParser.cpp 424-432. -/
def visitLVals : List LVal → Except Exc (List Expr)
  | [] => .ok []
  | e :: l => do
    let e ← visitLVal e
    let l ← visitLVals l
    return e :: l
/-- exprParser.cpp 493-529: the members are not visited. -/
def visitHSel : HSel → Except Exc Expr
  | .mk p bits _ sel => do
    let r ← visitPath p
    let r ← visitBits r bits
    visitSel r sel
/-- exprParser.cpp 471-478, 504-506. -/
def visitBits (r : Expr) : List Exp → Except Exc Expr
  | [] => .ok r
  | e :: l => do
    let e ← visitExp e
    visitBits (appendExpr r .INDEX e) l
/-- exprParser.cpp 508-528. -/
def visitSel (r : Expr) : Sel → Except Exc Expr
  | .none => .ok r
  | .range a b => do
    let a ← visitExp a
    let b ← visitExp b
    return appendExpr r .INDEX (.mkBin none a .DOWNTO b)
  | .plus a b => do
    let a ← visitExp a
    let b ← visitExp b
    return appendExpr r .INDEX (.mkBin none a .PART_SELECT_POST b)
  | .minus a b => do
    let a ← visitExp a
    let b ← visitExp b
    return appendExpr r .INDEX (.mkBin none a .PART_SELECT_PRE b)
/-- exprParser.cpp 653-697: the loop over the children with the flag `expecting_value`. -/
def visitArgs (expecting : Bool) : List Arg → Except Exc (List Expr)
  | [] => .ok []
  | .comma :: l => do
    let l ← visitArgs true l
    return if expecting then .id none (c! "void") :: l else l
  | .expr e :: l => do
    let e ← visitExp e
    let l ← visitArgs false l
    return e :: l
  | .namedEmpty i :: l => do
    let i ← visitIdent i
    let l ← visitArgs false l
    return .mkBin none i .MAP_ASSOCIATION (.id none (c! "void")) :: l
  | .named i e :: l => do
    let i ← visitIdent i
    let e ← visitExp e
    let l ← visitArgs false l
    return .mkBin none i .MAP_ASSOCIATION e :: l
end

/-- exprParser.cpp 638-651: only the first expression. -/
def visitCondPred (c : CondPred) : Except Exc Expr := visitExp c.head

/-- exprParser.cpp 699-709. -/
def visitOpAssign (a : OpAssign) : Except Exc Expr := do
  let d ← visitLVal a.dst
  let s ← visitExp a.src
  return .mkBin none d a.op.toOp s

/-- exprParser.cpp 480-491, 372-375. -/
def visitHierParts (sel : Expr) : List (Ident × List Exp) → Except Exc Expr
  | [] => .ok sel
  | (i, bits) :: l => do
    let i ← visitIdent i
    let r ← visitBits (appendExpr sel .DOT i) bits
    visitHierParts r l

/-- exprParser.cpp 363-379. -/
def visitHierId (h : HierId) : Except Exc Expr := do
  let r ← visitHierParts (if h.root then .id none (c! "$root") else .null) h.parts
  let i ← visitIdent h.last
  return appendExpr r .DOT i

/-- typeParser.cpp 273-280. -/
def visitPackedDim : Option ARange → Except Exc Expr
  | none => .ok .null
  | some r => visitARange r

/-- typeParser.cpp 326-333. -/
def visitPackedDims (e : Expr) : List (Option ARange) → Except Exc Expr
  | [] => .ok e
  | d :: l => do
    let d ← visitPackedDim d
    visitPackedDims (mkDim e d) l

/-- typeParser.cpp 295-335; `none`: the context is a null pointer. -/
def visitImplType (netType : Expr) : Option ImplType → Except Exc Expr
  | none => .ok (match netType with | .null => .symb none .T_AUTO | t => t)
  | some ⟨s, []⟩ => .ok (mkWireT .null (.symb none .NULL) s)
  | some ⟨s, d :: l⟩ => do
    let d ← visitPackedDim d
    visitPackedDims (mkWireT netType (match d with | .null => .symb none .NULL | d => d) s) l

/-- typeParser.cpp 199-215: without the context (`none`) and for an explicit data type the net type is dropped. -/
def visitDTypeOrImpl (netType : Expr) : Option DTypeOrImpl → Except Exc Expr
  | none => .ok (.symb none .T_AUTO)
  | some (.type t) => visitDType t
  | some (.impl t) => visitImplType netType (some t)

/-- typeParser.cpp 224-233 (`applyUnpacked_dimension`). -/
def visitUnpackedDims (e : Expr) : List ARange → Except Exc Expr
  | [] => .ok e
  | r :: l => do
    let r ← visitARange r
    visitUnpackedDims (.mkBin none e .INDEX r) l

/-- typeParser.cpp 235-271 (`applyVariable_dimension`). -/
def applyVDims (t : Expr) (l : List VDim) : Except Exc Expr := visitVDims (isOpenWire t) t l

end Verif.Sv
