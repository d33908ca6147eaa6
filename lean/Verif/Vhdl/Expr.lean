import Verif.Vhdl.Tree
/-!
# Model of the VHDL expression visitors

src/vhdlConvertor/{exprParser,referenceParser,literalParser,operatorTypeParser}.cpp and the subtype part of
typeDeclarationParser.cpp. Code positions of expressions are not exported to Python (hdlConvertor/toPy_expr.cpp) and left out
(`none`). The order in which C++ evaluates constructor arguments is unspecified; here they are evaluated left to right, which
only decides which of two exceptions is reported.
-/
namespace Verif.Vhdl
open Verif

/-- operatorTypeParser.cpp 7-30. -/
def ShiftOp.toOp : ShiftOp → OpType
  | .sll => .SLL | .srl => .SRL | .sla => .SLA | .sra => .SRA | .rol => .ROL | .ror => .ROR

/-- operatorTypeParser.cpp 31-60. -/
def RelOp.toOp : RelOp → OpType
  | .eq => .EQ | .ne => .NE | .le => .LE | .lt => .LT | .gt => .GT | .ge => .GE | .eqMatch => .EQ_MATCH | .neMatch => .NE_MATCH
  | .ltMatch => .LT_MATCH | .leMatch => .LE_MATCH | .gtMatch => .GT_MATCH | .geMatch => .GE_MATCH

/-- operatorTypeParser.cpp 61-78. -/
def LogOp.toOp : LogOp → OpType
  | .and => .AND | .or => .OR | .nand => .NAND | .nor => .NOR | .xor => .XOR | .xnor => .XNOR

/-- operatorTypeParser.cpp 79-87. -/
def SignOp.toOp : SignOp → OpType
  | .plus => .ADD | .minus => .SUB

/-- operatorTypeParser.cpp 88-98. -/
def AddOp.toOp : AddOp → OpType
  | .plus => .ADD | .minus => .SUB | .amp => .CONCAT

/-- operatorTypeParser.cpp 99-111. -/
def MulOp.toOp : MulOp → OpType
  | .mul => .MUL | .div => .DIV | .mod => .MOD | .rem => .REM

/-- exprParser.cpp 168-173 (`aggregate_to_parenthesis`). -/
def aggToParen : Expr → Expr
  | .arr _ [e] => e
  | e => e

/-- referenceParser.cpp 42-60 (`visitName_literal`), literalParser.cpp 196-203. -/
def visitNameLit : NameLit → Except Exc Expr
  | .ident t => .ok (.id none t)
  | .opSymbol t => do
    let s ← vhdlString t
    return .str none s
  | .chr t => do
    let v ← vhdlChar t
    return .int none v

/-- referenceParser.cpp 29-41. -/
def visitSuffix : Suffix → Except Exc Expr
  | .lit l => visitNameLit l
  | .all => .ok (.symb none .ALL)

/-- literalParser.cpp 114-131 as an expression. -/
def visitDec (t : Str) : Except Exc Expr := do
  let v ← vhdlDecimal t
  match v with
  | .float x => return .float none x
  | .int i => return .int none i

/-- The end of exprParser.cpp 341-357: the elements of an aggregate become one object. -/
def mkAggregate : List Expr → Expr
  | [e] =>
    match e with
    | .op p .MAP_ASSOCIATION l => .arr none [.op p .MAP_ASSOCIATION l]
    | e => e
  | l => .arr none l

mutual
/-- referenceParser.cpp 75-119 (`visitName`), 61-74 (`visitName_slice_part`), 121-136 (`visitName_attribute_part`), 150-163. -/
def visitName : Name → Except Exc Expr
  | .external => .ok (.notImpl none)
  | .lit l => visitNameLit l
  | .slice n r => do
    let n ← visitName n
    let r ← visitERange r
    return .mkBin none n .INDEX r
  | .attr n _ d => do
    let n ← visitName n
    return .mkBin none n .APOSTROPHE (.id none d)
  | .dot n s => do
    let n ← visitName n
    let s ← visitSuffix s
    return .mkBin none n .DOT s
  | .assoc n l => do
    let n ← visitName n
    let l ← visitAssocs l
    return .mkIndex none n l
/-- exprParser.cpp 66-80. -/
def visitERange : ERange → Except Exc Expr
  | .mk a dt b => do
    let a ← visitSimple a
    let b ← visitSimple b
    return .mkBin none a (if dt then .DOWNTO else .TO) b
/-- exprParser.cpp 18-28. -/
def visitAssocs : List Assoc → Except Exc (List Expr)
  | [] => .ok []
  | a :: l => do
    let a ← visitAssoc a
    let l ← visitAssocs l
    return a :: l
/-- exprParser.cpp 30-63 (`visitAssociation_element`, `visitFormal_part`). -/
def visitAssoc : Assoc → Except Exc Expr
  | .pos a => visitActual a
  | .named f a => do
    let ap ← visitActual a
    let f ← visitName f
    return .mkBin none f .ARROW ap
  | .namedConv f g a => do
    let ap ← visitActual a
    let f ← visitName f
    let g ← visitName g
    return .mkBin none (.mkCall none f [g]) .ARROW ap
/-- exprParser.cpp 98-114. -/
def visitActual : Actual → Except Exc Expr
  | .desig d => visitDesig d
  | .conv n d => do
    let d ← visitDesig d
    let n ← visitName n
    return .mkCall none n [d]
/-- exprParser.cpp 115-128. -/
def visitDesig : Desig → Except Exc Expr
  | .opn => .ok (.symb none .OPEN)
  | .sub s => visitSubInd s
  | .expr e => visitExpression e
/-- typeDeclarationParser.cpp 308-334; `visitResolution_indication` is exprParser.cpp 130-144. -/
def visitSubInd : SubInd → Except Exc Expr
  | .mk r tm c => do
    let r ← visitResol r
    let e ← visitName tm
    let e ← visitConstr e c
    match r with
    | some r => return .mkBin none r .DEFINE_RESOLVER e
    | none => return e
/-- exprParser.cpp 130-144. -/
def visitResol : Resol → Except Exc (Option Expr)
  | .none => .ok none
  | .name n => do
    let n ← visitName n
    return some n
  | .element => .ok (some (.notImpl none))
/-- typeDeclarationParser.cpp 399-424, 383-397: a record constraint replaces the type. -/
def visitConstr (e : Expr) : Constr → Except Exc Expr
  | .none => .ok e
  | .range r => do
    let r ← visitRange r
    return .mkBin none e .RANGE r
  | .array a => visitArrC e a
  | .record => .ok (.notImpl none)
/-- exprParser.cpp 82-96, referenceParser.cpp 133-142. -/
def visitRange : Range → Except Exc Expr
  | .attr n _ d => do
    let n ← visitName n
    return .mkBin none n .APOSTROPHE (.id none d)
  | .expl r => visitERange r
/-- typeDeclarationParser.cpp 337-373. -/
def visitArrC (e : Expr) : ArrC → Except Exc Expr
  | .index l c => do
    let l ← visitDiscrs l
    visitElemC (.mkIndex none e l) c
  | .opn c => visitElemC (.mkBin none e .INDEX (.symb none .ALL)) c
/-- typeDeclarationParser.cpp 375-397. -/
def visitElemC (e : Expr) : ElemC → Except Exc Expr
  | .none => .ok e
  | .array a => visitArrC e a
  | .record => .ok (.notImpl none)
/-- typeDeclarationParser.cpp 366-369. -/
def visitDiscrs : List Discr → Except Exc (List Expr)
  | [] => .ok []
  | d :: l => do
    let d ← visitDiscr d
    let l ← visitDiscrs l
    return d :: l
/-- exprParser.cpp 146-156. -/
def visitDiscr : Discr → Except Exc Expr
  | .sub s => visitSubInd s
  | .range r => visitRange r
/-- exprParser.cpp 234-276. -/
def visitExpression : Expression → Except Exc Expr
  | .cond p => do
    let p ← visitPrimary p
    return aggToParen p
  | .simple s => visitSimple s
  | .shift a o b => do
    let a ← visitExpression a
    let b ← visitExpression b
    return .mkBin none a o.toOp b
  | .rel a o b => do
    let a ← visitExpression a
    let b ← visitExpression b
    return .mkBin none a o.toOp b
  | .logic a o b => do
    let a ← visitExpression a
    let b ← visitExpression b
    return .mkBin none a o.toOp b
/-- exprParser.cpp 175-233. -/
def visitSimple : Simple → Except Exc Expr
  | .prim p => visitPrimary p
  | .pow a b => do
    let a ← visitPrimary a
    let b ← visitPrimary b
    return .mkBin none (aggToParen a) .POW (aggToParen b)
  | .abs s => do
    let s ← visitSimple s
    return .mkUn none .ABS (aggToParen s)
  | .not s => do
    let s ← visitSimple s
    return .mkUn none .NEG (aggToParen s)
  | .logic o s => do
    let u ← o.toOp.toUnary
    let s ← visitSimple s
    return .mkUn none u (aggToParen s)
  | .sign o s => do
    let u ← o.toOp.toUnary
    let s ← visitSimple s
    return .mkUn none u (aggToParen s)
  | .mul a o b => do
    let a ← visitSimple a
    let b ← visitSimple b
    return .mkBin none (aggToParen a) o.toOp (aggToParen b)
  | .add a o b => do
    let a ← visitSimple a
    let b ← visitSimple b
    return .mkBin none (aggToParen a) o.toOp (aggToParen b)
/-- exprParser.cpp 278-339 (`visitPrimary`, `visitQualified_expression`, `visitAllocator`), literalParser.cpp 58-92. -/
def visitPrimary : Primary → Except Exc Expr
  | .name n => visitName n
  | .dec t => visitDec t
  | .decUnit t n => do
    let n ← visitName n
    let v ← visitDec t
    return .mkBin none v .UNIT_SPEC n
  | .based t => do
    let v ← vhdlBased t
    return .int none v
  | .basedUnit t n => do
    let n ← visitName n
    let v ← vhdlBased t
    return .mkBin none (.int none v) .UNIT_SPEC n
  | .bits t => do
    let v ← vhdlBitString t
    return .int none v
  | .null => .ok (.symb none .NULL)
  | .newSub s => do
    let s ← visitSubInd s
    return .mkBin none (.id none (c! "new")) .CALL s
  | .newQual t l => do
    let t ← visitName t
    let l ← visitElems l
    return .mkBin none (.id none (c! "new")) .CALL (.mkBin none t .APOSTROPHE (mkAggregate l))
  | .agg l => do
    let l ← visitElems l
    return mkAggregate l
  | .qual t l => do
    let t ← visitName t
    let l ← visitElems l
    return .mkBin none t .APOSTROPHE (mkAggregate l)
/-- exprParser.cpp 346-350. -/
def visitElems : List Elem → Except Exc (List Expr)
  | [] => .ok []
  | e :: l => do
    let e ← visitElem e
    let l ← visitElems l
    return e :: l
/-- exprParser.cpp 359-378: of several choices only the first is kept. The grammar has no empty list of choices. -/
def visitElem : Elem → Except Exc Expr
  | .pos e => visitExpression e
  | .named l e => do
    let e ← visitExpression e
    let l ← visitChoices l
    match l with
    | [] => .error .ub
    | c :: _ => return .mkBin none c .MAP_ASSOCIATION e
/-- exprParser.cpp 494-503. -/
def visitChoices : List Choice → Except Exc (List Expr)
  | [] => .ok []
  | c :: l => do
    let c ← visitChoice c
    let l ← visitChoices l
    return c :: l
/-- exprParser.cpp 472-493. -/
def visitChoice : Choice → Except Exc Expr
  | .discr d => visitDiscr d
  | .simple s => visitSimple s
  | .others => .ok (.symb none .OTHERS)
end

/-- exprParser.cpp 456-469: the delay is ignored. -/
def visitWaveElem (w : WaveElem) : Except Exc Expr := visitExpression w.value

/-- exprParser.cpp 406-416: the `while` loop over the other elements of a waveform. -/
def visitWaveTail (top : Expr) : List WaveElem → Except Exc Expr
  | [] => .ok top
  | w :: l => do
    let e ← visitWaveElem w
    visitWaveTail (.mkBin none top .DOT e) l

/-- exprParser.cpp 394-417. -/
def visitWaveform : Waveform → Except Exc Expr
  | .unaffected => .ok (.notImpl none)
  | .elems h t => do
    let e ← visitWaveElem h
    visitWaveTail e t

/-- exprParser.cpp 440-452: the loop of `visitConditional_waveforms`. `ws` are the waveforms that are left in reverse order, `cs`
the conditions in reverse order, `hasElse` is `waveforms.size() > conditions.size()`. Reading a condition behind the end is
undefined. -/
def condLoop (hasElse : Bool) : List Waveform → List Expression → Expr → Except Exc Expr
  | [], _, res => .ok res
  | w :: ws, cs, res => do
    let we ← visitWaveform w
    match res, hasElse with
    | .null, true => condLoop hasElse ws cs we
    | _, _ =>
      match cs with
      | [] => .error .ub
      | c :: cs =>
        let ce ← visitExpression c
        condLoop hasElse ws cs (.mkTernary none ce we res)

/-- exprParser.cpp 427-454. -/
def visitCondWaves (c : CondWaves) : Except Exc Expr :=
  let waves := (c.head :: c.tail).map (·.1) ++ c.dflt.toList
  let conds := (c.head :: c.tail).map (·.2)
  condLoop (waves.length > conds.length) waves.reverse conds.reverse .null

/-- exprParser.cpp 505-526 (`visitProcedure_call`). -/
def visitProcCall (n : Name) : Except Exc Expr := do
  let f ← visitName n
  match f with
  | .op p .CALL l => return .op p .CALL l
  | .op p .INDEX l => return .op p .CALL l
  | f => return .mkCall none f []

end Verif.Vhdl
