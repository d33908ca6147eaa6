import Verif.Sv.Grammar
import Verif.Sv.Stm
/-!
# Model of the parser for SystemVerilog statements (grammars/sv2017Parser.g4)

Every rule that `statement_or_null` (line 449) can reach is one definition, in the same way as for expressions (Verif/Sv/Grammar.lean): the
list of all parses of a beginning of the tokens, in the order in which ANTLR prefers them. `E` are the rules for expressions. Not
modelled, and given by `StmRules`: assertions, `randsequence`, `expect`, and what follows the keywords `typedef` and `let`.
-/
namespace Verif.Sv
open P

/-- Tokens at which no statement begins. -/
def stmEnd : List ST := [.SEMI, .KW_END, .KW_JOIN, .KW_JOIN_ANY, .KW_JOIN_NONE]

/-- The rules which are not modelled: `procedural_assertion_statement` (lines 656-660), `randsequence_statement` (lines 724-725),
`expect_property_statement` (line 687), and what follows `KW_TYPEDEF` (lines 800-809) and `KW_LET` (lines 814-824). -/
structure StmRules where
  assertion : P Unit
  randsequence : P Unit
  expect : P Unit
  typedefBody : P TypeDecl
  letBody : P Unit
  /-- They begin with keywords of their own (`assert`, `assume`, `cover`, `restrict`, `randsequence`, `expect`). -/
  assertion_end : ∀ y r, y.ty ∈ stmEnd → assertion (y :: r) = []
  randsequence_end : ∀ y r, y.ty ∈ stmEnd → randsequence (y :: r) = []
  expect_end : ∀ y r, y.ty ∈ stmEnd → expect (y :: r) = []

/-- `{_input->LA(1) != t}?` -/
def notNext (t : ST) : P Unit
  | [] => [((), [])]
  | x :: r => if x.ty = t then [] else [((), x :: r)]

/-- Is the token there? -/
def flag (t : ST) : P Bool := opt (tok t) >>= fun o => pure o.isSome

/-! ## Delays and events -/

/-- lines 170-174. -/
def edgeIdentifier : P Edge := toks [(.KW_POSEDGE, .posedge), (.KW_NEGEDGE, .negedge), (.KW_EDGE, .edge)]

/-- lines 928-931. -/
def eventItemT (E : Env) (ev : P (List EventItem)) : P EventItem := P.or
  (do let _ ← tok .LPAREN; let l ← ev; let _ ← tok .RPAREN; return .par l)
  (do let g ← opt edgeIdentifier
      let e ← E.expression 0
      let c ← opt (do let _ ← tok .KW_IFF; E.expression 0)
      return .ev g e c)

/-- line 932, with recursion to depth `n`. -/
def eventExprN (E : Env) : Nat → P (List EventItem)
  | 0 => fail
  | n + 1 => do
    let a ← eventItemT E (eventExprN E n)
    let l ← many (do let _ ← texts [.KW_OR, .COMMA]; eventItemT E (eventExprN E n))
    return a :: l

/-- line 932; every level of recursion takes a token. -/
def eventExpr (E : Env) : P (List EventItem) := fun ts => eventExprN E (ts.length + 1) ts

/-- lines 508-514. -/
def eventControl (E : Env) : P EventCtl := do
  let _ ← tok .AT
  alts [
    do let _ ← tok .LPAREN
       let r ← P.or (tok .MUL >>= fun _ => pure EventCtl.star) (eventExpr E >>= fun l => pure (.events l))
       let _ ← tok .RPAREN
       return r,
    tok .MUL >>= fun _ => pure .star,
    hierSel E >>= fun h => pure (.id h)]

/-- line 900: `identifier_with_bit_select`. -/
def idBits (E : Env) : P (Ident × List Exp) := do
  let i ← identifier
  let l ← many (bitSelect E)
  return (i, l)

/-- lines 916-917. -/
def hierarchicalIdentifier (E : Env) : P HierId := do
  let r ← opt (do let _ ← tok .KW_DOLAR_ROOT; tok .DOT)
  let l ← many (do let x ← idBits E; let _ ← tok .DOT; return x)
  let i ← identifier
  return ⟨r.isSome, l, i⟩

/-- line 1237. -/
def packageScope : P PkgScope := do
  let s ← P.or (tok .KW_DOLAR_UNIT >>= fun _ => pure none) (identifier >>= fun i => pure (some i))
  let _ ← tok .DOUBLE_COLON
  return s
/-- line 1238. -/
def psIdentifier : P (Option PkgScope × Ident) := do
  let s ← opt packageScope
  let i ← identifier
  return (s, i)

/-- lines 529-536. -/
def delayValue (E : Env) : P DelayVal := alts [
  tok .UNSIGNED_NUMBER >>= fun t => pure (.num t),
  tok .TIME_LITERAL >>= fun t => pure (.time t),
  tok .KW_1STEP >>= fun _ => pure .step1,
  realNumber >>= fun t => pure (.real t),
  psIdentifier >>= fun x => pure (.ps x.1 x.2),
  hierarchicalIdentifier E >>= fun h => pure (.hier h)]

/-- lines 537-540. -/
def delayControl (E : Env) : P DelayCtl := do
  let _ ← tok .HASH
  P.or (do let _ ← tok .LPAREN; let m ← mintypmax E; let _ ← tok .RPAREN; return .mtm m)
    (delayValue E >>= fun v => pure (.value v))

/-- lines 515-518. -/
def delayOrEvent (E : Env) : P DelayOrEvent := P.or
  (delayControl E >>= fun d => pure (.delay d))
  (do let r ← opt (do let _ ← tok .KW_REPEAT; let _ ← tok .LPAREN; let e ← E.expression 0; let _ ← tok .RPAREN; return e)
      let e ← eventControl E
      return .event r e)

/-- lines 484-488. -/
def cycleDelay (E : Env) : P Unit := do
  let _ ← tok .DOUBLE_HASH
  alts [
    do let _ ← tok .LPAREN; let _ ← E.expression 0; let _ ← tok .RPAREN; return (),
    skip integralNumber,
    skip identifier]

/-- lines 948-949, 1018-1024. -/
def cycleDelayRange (B : Rules) (E : Env) : P Unit := do
  let _ ← tok .DOUBLE_HASH
  P.or (do
      let _ ← tok .LSQUARE_BR
      let _ ← alts [skip (tok .MUL), skip (tok .PLUS),
        do let _ ← E.expression 0; let _ ← tok .COLON; P.or (skip (tok .DOLAR)) (skip (E.expression 0))]
      let _ ← tok .RSQUARE_BR
      return ())
    (skip (primary B E))

/-- lines 502-507. -/
def timingControl (B : Rules) (E : Env) : P TimingCtl := alts [
  delayControl E >>= fun d => pure (.delay d),
  eventControl E >>= fun e => pure (.event e),
  cycleDelay E >>= fun _ => pure .cycle,
  cycleDelayRange B E >>= fun _ => pure .cycleRange]

/-! ## Assignments -/

/-- lines 27-41. -/
def assignOp : P AssignOp := toks [(.ASSIGN, .assign), (.PLUS_ASSIGN, .plus), (.MINUS_ASSIGN, .minus), (.MUL_ASSIGN, .mul), (.DIV_ASSIGN, .div),
  (.MOD_ASSIGN, .mod), (.AND_ASSIGN, .and), (.OR_ASSIGN, .or), (.XOR_ASSIGN, .xor), (.SHIFT_LEFT_ASSIGN, .shl), (.SHIFT_RIGHT_ASSIGN, .shr),
  (.ARITH_SHIFT_LEFT_ASSIGN, .ashl), (.ARITH_SHIFT_RIGHT_ASSIGN, .ashr)]

/-- line 974. -/
def operatorAssignment (E : Env) : P OpAssign := do
  let l ← E.lvalue
  let o ← assignOp
  let e ← E.expression 0
  return ⟨l, o, e⟩

/-- lines 1318-1319. -/
def dynamicArrayNew (E : Env) : P Unit := do
  let _ ← tok .KW_NEW
  let _ ← tok .LSQUARE_BR
  let _ ← E.expression 0
  let _ ← tok .RSQUARE_BR
  let _ ← opt (do let _ ← tok .LPAREN; let _ ← E.expression 0; tok .RPAREN)
  return ()

/-- lines 1244-1248. -/
def classScope (E : Env) : P Unit := do
  let _ ← psIdentifier
  let _ ← pvaOpt E
  let _ ← many (do let _ ← tok .DOUBLE_COLON; let _ ← identifier; pvaOpt E)
  let _ ← tok .DOUBLE_COLON
  return ()

/-- lines 1148-1151. -/
def classNew (E : Env) : P Unit := P.or
  (do let _ ← tok .KW_NEW; skip (E.expression 0))
  (do let _ ← opt (classScope E)
      let _ ← tok .KW_NEW
      let _ ← opt (do let _ ← tok .LPAREN; let _ ← opt (listOfArguments E); tok .RPAREN)
      return ())

/-- The first alternative of lines 496-500. -/
def timedBlocking (E : Env) : P StmItem := do
  let l ← E.lvalue
  let _ ← tok .ASSIGN
  P.or (do let d ← delayOrEvent E; let e ← E.expression 0; return .blocking l d e)
    (dynamicArrayNew E >>= fun _ => pure (.arrayNew l))

/-- lines 496-500. -/
def blockingAssignment (E : Env) : P StmItem := alts [
  timedBlocking E,
  do let _ ← hierSel E; let _ ← tok .ASSIGN; let _ ← classNew E; return .classNew,
  operatorAssignment E >>= fun a => pure (.opAssign a)]

/-- line 541. -/
def nonblockingAssignment (E : Env) : P StmItem := do
  let l ← E.lvalue
  let _ ← tok .LE
  let d ← opt (delayOrEvent E)
  let e ← E.expression 0
  return .nonblocking l d e

/-- lines 548-549. -/
def variableAssignment (E : Env) : P (LVal × Exp) := do
  let l ← E.lvalue
  let _ ← tok .ASSIGN
  let e ← E.expression 0
  return (l, e)

/-- lines 542-547. -/
def proceduralContinuousAssignment (E : Env) : P Unit := alts [
  do let _ ← tok .KW_ASSIGN; skip (variableAssignment E),
  do let _ ← tok .KW_DEASSIGN; skip E.lvalue,
  do let _ ← tok .KW_FORCE; skip (variableAssignment E),
  do let _ ← tok .KW_RELEASE; skip E.lvalue]

/-- lines 922-925. -/
def selectRule (E : Env) : P Unit := do
  let _ ← many (P.or (do let _ ← tok .DOT; skip identifier) (skip (bitSelect E)))
  let _ ← opt (do let _ ← tok .LSQUARE_BR; let _ ← arrayRange E; tok .RSQUARE_BR)
  return ()

/-- lines 489-490. -/
def clockingDrive (E : Env) : P Unit := do
  let _ ← hierarchicalIdentifier E
  selectRule E
  let _ ← tok .LE
  cycleDelay E
  skip (E.expression 0)

/-- lines 1289-1292, as a statement. -/
def incOrDecItem (E : Env) : P StmItem := P.or
  (do let o ← incOrDecOperator; let _ ← attributes E; let l ← E.lvalue; return .incDec true o l)
  (do let l ← E.lvalue; let _ ← attributes E; let o ← incOrDecOperator; return .incDec false o l)

/-- lines 462-468. -/
def simpleItem (B : Rules) (E : Env) : P StmItem := do
  let s ← alts [
    blockingAssignment E,
    nonblockingAssignment E,
    proceduralContinuousAssignment E >>= fun _ => pure (.unsupported .procContAssign),
    incOrDecItem E,
    primary B E >>= fun p => pure (.prim p),
    clockingDrive E >>= fun _ => pure (.unsupported .clockingDrive)]
  let _ ← tok .SEMI
  return s

/-! ## Declarations in blocks -/

/-- lines 161-164. -/
def lifetime : P Lifetime := toks [(.KW_STATIC, .static), (.KW_AUTOMATIC, .automatic)]

/-- line 1249. -/
def rangeExpression (E : Env) : P ARange := do
  let a ← E.expression 0
  let b ← opt (do let _ ← tok .COLON; E.expression 0)
  return match b with
    | none => .one a
    | some b => .range a b

/-- line 1159. -/
def packedDimension (E : Env) : P (Option ARange) := do
  let _ ← tok .LSQUARE_BR
  let r ← opt (rangeExpression E)
  let _ ← tok .RSQUARE_BR
  return r

/-- line 1158. -/
def unpackedDimension (E : Env) : P ARange := do
  let _ ← tok .LSQUARE_BR
  let r ← rangeExpression E
  let _ ← tok .RSQUARE_BR
  return r

/-- lines 1199-1202. -/
def implicitDataType (E : Env) : P ImplType := P.or
  (do let s ← signing; let l ← many (packedDimension E); return ⟨s, l⟩)
  (many1 (packedDimension E) >>= fun l => pure ⟨.none, l⟩)

/-- lines 1195-1198. -/
def dataTypeOrImplicit (E : Env) : P DTypeOrImpl := P.or
  (E.dataType >>= fun t => pure (.type t))
  (implicitDataType E >>= fun t => pure (.impl t))

/-- What follows the name in lines 1323-1328. -/
def variableInit (E : Env) : P (List VDim × VarInit) := P.or
  (do let _ ← tok .ASSIGN
      let v ← P.or (E.expression 0 >>= fun e => pure (VarInit.expr e)) (classNew E >>= fun _ => pure .new)
      return ([], v))
  (do let l ← many1 (variableDimension E)
      let v ← opt (do
        let _ ← tok .ASSIGN
        P.or (E.expression 0 >>= fun e => pure (VarInit.expr e)) (dynamicArrayNew E >>= fun _ => pure .new))
      return (l, v.getD .none))

/-- lines 1323-1328. -/
def variableDeclAssignment (E : Env) : P VarDecl := do
  let i ← identifier
  let r ← opt (variableInit E)
  return match r with
    | none => ⟨i, [], .none⟩
    | some (l, v) => ⟨i, l, v⟩

/-- lines 825-830. -/
def packageImport : P (List ImportItem) := do
  let _ ← tok .KW_IMPORT
  let l ← sepBy .COMMA (do
    let p ← identifier
    let _ ← tok .DOUBLE_COLON
    let i ← P.or (tok .MUL >>= fun _ => pure none) (identifier >>= fun i => pure (some i))
    return (⟨p, i⟩ : ImportItem))
  let _ ← tok .SEMI
  return l

/-- lines 918-921. -/
def scopedId (E : Env) : P Unit := do
  let _ ← P.or (skip (tok .KW_DOLAR_UNIT)) (skip (pathItem E))
  skip (many (do let _ ← tok .DOUBLE_COLON; pathItem E))

/-- lines 810-811. -/
def netTypeDeclaration (E : Env) : P Unit := do
  let _ ← tok .KW_NETTYPE
  let _ ← E.dataType
  let _ ← identifier
  let _ ← opt (do let _ ← tok .KW_WITH; scopedId E)
  skip (tok .SEMI)

/-- The type of a variable in lines 1582-1584, with its lifetime. -/
def variableType (E : Env) : P (Option Lifetime × Option DTypeOrImpl) := P.or
  (do let _ ← tok .KW_VAR
      let l ← opt lifetime
      let t ← opt (dataTypeOrImplicit E)
      return (l, t))
  (do let l ← opt lifetime
      let t ← dataTypeOrImplicit E
      return (l, some t))

/-- The first alternative of lines 1581-1588. -/
def variablesDeclaration (E : Env) : P DataDecl := do
  let c ← flag .KW_CONST
  let t ← variableType E
  let l ← sepBy .COMMA (variableDeclAssignment E)
  let _ ← tok .SEMI
  return .vars c t.1 t.2 l

/-- lines 1581-1588. -/
def dataDeclaration (C : StmRules) (E : Env) : P DataDecl := alts [
  variablesDeclaration E,
  do let _ ← tok .KW_TYPEDEF; let t ← C.typedefBody; return .type t,
  packageImport >>= fun l => pure (.import_ l),
  netTypeDeclaration E >>= fun _ => pure .nettype]

/-- lines 786-787. -/
def paramAssignment (E : Env) : P ParamAssign := do
  let i ← identifier
  let l ← many (unpackedDimension E)
  let v ← opt (do let _ ← tok .ASSIGN; paramExpression E)
  return ⟨i, l, v⟩

/-- line 788. -/
def typeAssignment (E : Env) : P TypeAssign := do
  let i ← identifier
  let t ← opt (do let _ ← tok .ASSIGN; E.dataType)
  return ⟨i, t⟩

/-- lines 791-799: what follows the keyword. -/
def paramDeclaration (E : Env) : P ParamDecl := P.or
  (do let _ ← tok .KW_TYPE; let l ← sepBy .COMMA (typeAssignment E); return .type l)
  (do let t ← opt (dataTypeOrImplicit E); let l ← sepBy .COMMA (paramAssignment E); return .val t l)

/-- lines 777-785. -/
def blockItemDeclaration (C : StmRules) (E : Env) : P BlockDecl := do
  let _ ← attributes E
  alts [
    dataDeclaration C E >>= fun d => pure (.data d),
    do let d ← P.or (do let _ ← tok .KW_LOCALPARAM; let d ← paramDeclaration E; return BlockDecl.localparam d)
         (do let _ ← tok .KW_PARAMETER; let d ← paramDeclaration E; return .param d)
       let _ ← tok .SEMI
       return d,
    do let _ ← tok .KW_LET; C.letBody; return .let_]

/-! ## Statements; `F` is the rule `statement` -/

/-- lines 449-452. -/
def statementOrNull (E : Env) (F : P Stm) : P StmN := P.or
  (F >>= fun s => pure (.stm s))
  (do let _ ← attributes E; let _ ← tok .SEMI; return .semi)

/-- `COLON identifier | {_input->LA(1) != COLON}?` -/
def blockLabel : P (Option Ident) := P.or
  (do let _ ← tok .COLON; let i ← identifier; return some i)
  (notNext .COLON >>= fun _ => pure none)

/-- lines 177-181. -/
def joinKeyword : P Join := toks [(.KW_JOIN, .PAR_JOIN), (.KW_JOIN_ANY, .PAR_JOIN_ANY), (.KW_JOIN_NONE, .PAR_JOIN_NONE)]

/-- lines 554-557. -/
def seqBlock (C : StmRules) (E : Env) (F : P Stm) : P StmItem := do
  let _ ← tok .KW_BEGIN
  let n ← blockLabel
  let d ← many (blockItemDeclaration C E)
  let l ← many (statementOrNull E F)
  let _ ← tok .KW_END
  let e ← blockLabel
  return .seq n d l e

/-- lines 558-561. -/
def parBlock (C : StmRules) (E : Env) (F : P Stm) : P StmItem := do
  let _ ← tok .KW_FORK
  let n ← blockLabel
  let d ← many (blockItemDeclaration C E)
  let l ← many (statementOrNull E F)
  let j ← joinKeyword
  let e ← blockLabel
  return .par n d l j e

/-- lines 182-186. -/
def uniquePriority : P UniqPrio := toks [(.KW_UNIQUE, .unique), (.KW_UNIQUE0, .unique0), (.KW_PRIORITY, .priority)]
/-- lines 570-574. -/
def caseKeyword : P CaseKw := toks [(.KW_CASE, .case), (.KW_CASEZ, .casez), (.KW_CASEX, .casex)]

/-- An item of a `case`: `default` or `l`, and the statement. -/
def caseItemOf (E : Env) (F : P Stm) (l : P (List Exp)) : P CaseItem := P.or
  (do let _ ← tok .KW_DEFAULT; let _ ← opt (tok .COLON); let s ← statementOrNull E F; return .dflt s)
  (do let l ← l; let _ ← tok .COLON; let s ← statementOrNull E F; return .exprs l s)

/-- lines 575-578. -/
def caseItem (E : Env) (F : P Stm) : P CaseItem := caseItemOf E F (sepBy .COMMA (E.expression 0))
/-- lines 579-582. -/
def casePatternItem (E : Env) (F : P Stm) : P CaseItem :=
  caseItemOf E F (do let _ ← E.pattern; let _ ← opt (do let _ ← tok .TRIPLE_AND; E.expression 0); return [])
/-- lines 583-586, 1350. -/
def caseInsideItem (E : Env) (F : P Stm) : P CaseItem :=
  caseItemOf E F (sepBy .COMMA (valueRange E) >>= fun _ => pure [])

/-- `LPAREN expression RPAREN` -/
def parExpr (E : Env) : P Exp := do
  let _ ← tok .LPAREN
  let e ← E.expression 0
  let _ ← tok .RPAREN
  return e

/-- lines 562-569. -/
def caseStatement (E : Env) (F : P Stm) : P StmItem := do
  let u ← opt uniquePriority
  let s ← P.or
    (do let _ ← tok .KW_CASE
        let e ← parExpr E
        let _ ← tok .KW_INSIDE
        let l ← many1 (caseInsideItem E F)
        return StmItem.caseInside u e l)
    (do let k ← caseKeyword
        let e ← parExpr E
        P.or (do let _ ← tok .KW_MATCHES; let l ← many1 (casePatternItem E F); return .caseMatches u k e l)
          (do let l ← many1 (caseItem E F); return .case u k e l))
  let _ ← tok .KW_ENDCASE
  return s

/-- lines 587-588. -/
def randcaseStatement (E : Env) (F : P Stm) : P Unit := do
  let _ ← tok .KW_RANDCASE
  let _ ← many1 (do let _ ← E.expression 0; let _ ← tok .COLON; statementOrNull E F)
  skip (tok .KW_ENDCASE)

/-- lines 590-591. -/
def condPredicate (E : Env) : P CondPred := do
  let e ← E.expression 0
  let m ← matchesOpt E
  let l ← many (do let _ ← tok .TRIPLE_AND; let e ← E.expression 0; let m ← matchesOpt E; return (e, m.isSome))
  return ⟨e, m.isSome, l⟩

/-- `KW_ELSE statement_or_null | {_input->LA(1) != KW_ELSE}?` -/
def elseBranch (E : Env) (F : P Stm) : P (Option StmN) := P.or
  (do let _ ← tok .KW_ELSE; let s ← statementOrNull E F; return some s)
  (notNext .KW_ELSE >>= fun _ => pure none)

/-- lines 592-594. -/
def conditionalStatement (E : Env) (F : P Stm) : P StmItem := do
  let u ← opt uniquePriority
  let _ ← tok .KW_IF
  let _ ← tok .LPAREN
  let c ← condPredicate E
  let _ ← tok .RPAREN
  let t ← statementOrNull E F
  let f ← elseBranch E F
  return match f with
    | none => .if_ u c t
    | some f => .ifElse u c t f

/-- lines 595-596. -/
def subroutineCallStatement (E : Env) : P StmItem := do
  let _ ← tok .KW_VOID
  let _ ← tok .APOSTROPHE
  let e ← parExpr E
  let _ ← tok .SEMI
  return .voidCall e

/-- lines 597-600. -/
def disableStatement (E : Env) : P Unit := do
  let _ ← tok .KW_DISABLE
  let _ ← P.or (skip (tok .KW_FORK)) (skip (hierarchicalIdentifier E))
  skip (tok .SEMI)

/-- lines 601-604. -/
def eventTrigger (E : Env) : P Unit := do
  let _ ← P.or (skip (tok .ARROW)) (do let _ ← tok .DOUBLE_RIGHT_ARROW; skip (opt (delayOrEvent E)))
  let _ ← hierarchicalIdentifier E
  skip (tok .SEMI)

/-- lines 622-625. -/
def forVariableDeclaration (E : Env) : P ForDecl := do
  let v ← flag .KW_VAR
  let t ← E.dataType
  let l ← sepBy .COMMA (do let i ← identifier; let _ ← tok .ASSIGN; let e ← E.expression 0; return (i, e))
  return ⟨v, t, l⟩

/-- lines 616-621. -/
def forInitialization (E : Env) : P ForInit := P.or
  (sepBy .COMMA (variableAssignment E) >>= fun l => pure (.assigns l))
  (sepBy .COMMA (forVariableDeclaration E) >>= fun l => pure (.decls l))

/-- lines 970-973. -/
def sequenceMatchItem (E : Env) : P MatchItem := P.or
  (operatorAssignment E >>= fun a => pure (.assign a))
  (E.expression 0 >>= fun e => pure (.expr e))

/-- line 627. -/
def loopVariables : P (List (Option Ident)) := do
  let a ← opt identifier
  let l ← many (do let _ ← tok .COMMA; opt identifier)
  return a :: l

/-- The head of a loop (in the first alternative of lines 606-615), the result makes the loop of its body. -/
def loopHead (E : Env) : P (StmN → StmItem) := alts [
  tok .KW_FOREVER >>= fun _ => pure .forever,
  do let k ← toks [(.KW_REPEAT, StmItem.repeat_), (.KW_WHILE, .while_)]
     let e ← parExpr E
     return k e,
  do let _ ← tok .KW_FOR
     let _ ← tok .LPAREN
     let i ← opt (forInitialization E)
     let _ ← tok .SEMI
     let c ← opt (E.expression 0)
     let _ ← tok .SEMI
     let s ← opt (sepBy .COMMA (sequenceMatchItem E))
     let _ ← tok .RPAREN
     return .for_ i c (s.getD [])]

/-- lines 606-615. -/
def loopStatement (E : Env) (F : P Stm) : P StmItem := alts [
  do let h ← loopHead E; let s ← statementOrNull E F; return h s,
  do let _ ← tok .KW_DO
     let s ← statementOrNull E F
     let _ ← tok .KW_WHILE
     let e ← parExpr E
     let _ ← tok .SEMI
     return .doWhile s e,
  do let _ ← tok .KW_FOREACH
     let _ ← tok .LPAREN
     let h ← hierSel E
     let _ ← tok .LSQUARE_BR
     let v ← loopVariables
     let _ ← tok .RSQUARE_BR
     let _ ← tok .RPAREN
     let s ← F
     return .foreach h v s]

/-- lines 628-632. -/
def jumpStatement (E : Env) : P StmItem := do
  let s ← alts [
    do let _ ← tok .KW_RETURN; let e ← opt (E.expression 0); return .return_ e,
    tok .KW_BREAK >>= fun _ => pure .break_,
    tok .KW_CONTINUE >>= fun _ => pure .continue_]
  let _ ← tok .SEMI
  return s

/-- lines 550-553. -/
def actionBlock (E : Env) (F : P Stm) : P Unit := P.or
  (do let _ ← tok .KW_ELSE; skip (statementOrNull E F))
  (do let _ ← statementOrNull E F; skip (elseBranch E F))

/-- lines 634-640. -/
def waitStatement (E : Env) (F : P Stm) : P Unit := P.or
  (do let _ ← tok .KW_WAIT
      P.or (do let _ ← parExpr E; skip (statementOrNull E F)) (do let _ ← tok .KW_FORK; skip (tok .SEMI)))
  (do let _ ← tok .KW_WAIT_ORDER
      let _ ← tok .LPAREN
      let _ ← sepBy .COMMA (hierarchicalIdentifier E)
      let _ ← tok .RPAREN
      actionBlock E F)

/-- line 501. -/
def timingStatement (B : Rules) (E : Env) (F : P Stm) : P StmItem := do
  let t ← timingControl B E
  let s ← statementOrNull E F
  return .timing t s

/-- lines 461-483. -/
def statementItem (B : Rules) (C : StmRules) (E : Env) (F : P Stm) : P StmItem := alts [
  simpleItem B E,
  caseStatement E F,
  conditionalStatement E F,
  subroutineCallStatement E,
  disableStatement E >>= fun _ => pure (.unsupported .disable),
  eventTrigger E >>= fun _ => pure (.unsupported .eventTrigger),
  loopStatement E F,
  jumpStatement E,
  parBlock C E F,
  timingStatement B E F,
  seqBlock C E F,
  waitStatement E F >>= fun _ => pure (.unsupported .wait),
  C.assertion >>= fun _ => pure (.unsupported .assertion),
  C.randsequence >>= fun _ => pure (.unsupported .randsequence),
  randcaseStatement E F >>= fun _ => pure (.unsupported .randcase),
  C.expect >>= fun _ => pure (.unsupported .expect)]

/-- line 460. -/
def statementRule (B : Rules) (C : StmRules) (E : Env) (F : P Stm) : P Stm := do
  let l ← opt (do let i ← identifier; let _ ← tok .COLON; return i)
  let _ ← attributes E
  let s ← statementItem B C E F
  return .mk l s

/-- The rule `statement` with recursion to depth `n`. -/
def statement (B : Rules) (C : StmRules) (E : Env) : Nat → P Stm
  | 0 => fail
  | n + 1 => statementRule B C E (statement B C E n)

/-- The parse of the rule `statement_or_null` that ANTLR takes if what follows the rule takes exactly the rests for which `follow` holds. Every
statement in a statement has a token in front of it, so the number of the tokens is a depth that the parser does not exceed. -/
def parseStatement (B : Rules) (C : StmRules) (follow : List STok → Bool) (ts : List STok) : Option (StmN × List STok) :=
  let E := env B (7 * ts.length + 7)
  (statementOrNull E (statement B C E (ts.length + 1)) ts).find? fun x => follow x.2

end Verif.Sv
