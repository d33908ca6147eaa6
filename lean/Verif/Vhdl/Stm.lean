import Verif.Vhdl.StmTree
import Verif.Vhdl.Expr
import Verif.HdlObj
/-!
# Model of the VHDL visitors for sequential statements (src/vhdlConvertor/statementParser.cpp)

A failed `assert` and the use of a null pointer are `Exc.ub`. Messages of `NotImplementedLogger` are not modelled. Code positions and
doc comments of statements are left out, as in `Verif.HdlObj`.
-/
namespace Verif.Vhdl
open Verif

/-- exprParser.cpp 380-392. -/
def visitTarget : Target → Except Exc Expr
  | .name n => visitName n
  | .agg l => do
    let l ← visitElems l
    return mkAggregate l

/-- `stm->labels.insert(stm->labels.begin(), l)`. -/
def pushLabel (l : Str) (o : Obj) : Obj := o.mapInfo fun i => { i with labels := l :: i.labels }

/-- `stm->labels.push_back(l)` if there is a label. -/
def appendLabel : Option Str → Obj → Obj
  | none, o => o
  | some l, o => o.mapInfo fun i => { i with labels := i.labels ++ [l] }

/-- statementParser.cpp 25-28. -/
def isOthers : Expr → Bool
  | .symb _ .OTHERS => true
  | _ => false

/-- An optional expression as a list, in the loops over `ctx->expression()`. -/
def visitOpt : Option Expression → Except Exc (List Expr)
  | none => .ok []
  | some e => do
    let e ← visitExpression e
    return [e]

/-- processParser.cpp 61-68. -/
def visitNames : List Name → Except Exc (List Expr)
  | [] => .ok []
  | n :: l => do
    let n ← visitName n
    let l ← visitNames l
    return n :: l

/-- statementParser.cpp 44-67 (`visitNextOrExit`); `fn` is `"NEXT"` or `"EXIT"` (142, 152). -/
def visitNextOrExit (fn : Str) (label : Option Str) (c : Option Expression) : Except Exc Obj := do
  let l := match label with
    | some l => Expr.id none l
    | none => Expr.symb none .NULL
  let c ← visitOpt c
  return .expr {} (.mkCall none (.id none fn) (l :: c))

/-- statementParser.cpp 179-200: `report` and `severity` are only told apart by their position. -/
def visitAssertion (c : Expression) (report severity : Option Expression) : Except Exc Obj := do
  let c ← visitExpression c
  let r ← visitOpt report
  let s ← visitOpt severity
  return .expr {} (.mkCall none (.id none (c! "assert")) (c :: (r ++ s)))

/-- statementParser.cpp 215-231. -/
def visitReport (e : Expression) (severity : Option Expression) : Except Exc Obj := do
  let e ← visitExpression e
  let s ← visitOpt severity
  return .expr {} (.mkCall none (.id none (c! "report")) (e :: s))

/-- statementParser.cpp 250-255: the negated condition of `until`. -/
def visitUntil : Option Expression → Except Exc (List Expr)
  | none => .ok []
  | some c => do
    let c ← visitExpression c
    return [.mkUn none .NEG c]

/-- statementParser.cpp 233-263: names, negated condition and timeout become one list. -/
def visitWait (on : List Name) (until_ for_ : Option Expression) : Except Exc Obj := do
  let on ← visitNames on
  let u ← visitUntil until_
  let f ← visitOpt for_
  return .wait {} (on ++ u ++ f)

/-- statementParser.cpp 315-471. Delay mechanism, `force`, force mode and the question mark are ignored, a selected assignment gives
the null pointer. -/
def visitSigAssign : SigAssign → Except Exc Obj
  | .wave t _ w => do
    let dst ← visitTarget t
    let src ← visitWaveform w
    mkAssign dst src .null none false
  | .force t _ e => do
    let dst ← visitTarget t
    let src ← visitExpression e
    mkAssign dst src .null none false
  | .release t _ => do
    let dst ← visitTarget t
    mkAssign dst (.notImpl none) .null none false
  | .cond t _ c => do
    let dst ← visitTarget t
    let src ← visitCondWaves c
    mkAssign dst src .null none false
  | .condForce t _ _ => do
    let dst ← visitTarget t
    mkAssign dst (.notImpl none) .null none false
  | .sel .. => .ok .null
  | .selForce .. => .ok .null

/-- statementParser.cpp 473-535. The target of a selected assignment is not visited, its place is taken by the selector (533). -/
def visitVarAssign : VarAssign → Except Exc Obj
  | .simple t e => do
    let dst ← visitTarget t
    let src ← visitExpression e
    mkAssign dst src .null none true
  | .cond t _ => do
    let dst ← visitTarget t
    mkAssign dst (.notImpl none) .null none true
  | .sel e _ _ _ => do
    let dst ← visitExpression e
    mkAssign dst (.notImpl none) .null none true

/-- statementParser.cpp 579-591. -/
def visitReturn : Option Expression → Except Exc Obj
  | none => .ok (.return_ {} .null)
  | some e => do
    let e ← visitExpression e
    return .return_ {} e

/-- statementParser.cpp 298-303: one choice of a `case` alternative; `acc` are the branches and the default so far. -/
def addChoice (ch : Expr) (b : Obj) (acc : List Branch × Obj) : Except Exc (List Branch × Obj) :=
  if isOthers ch then
    match acc.2 with
    | .null => .ok (acc.1, b)
    | _ => .error .ub
  else .ok (acc.1 ++ [.mk ch b], acc.2)

/-- statementParser.cpp 295-304: the loop over the choices. The statements `b` are visited once per choice; the copies are equal, so the
model visits them once. -/
def addChoices (b : Obj) : List Expr → List Branch × Obj → Except Exc (List Branch × Obj)
  | [], acc => .ok acc
  | ch :: l, acc => do
    let acc ← addChoice ch b acc
    addChoices b l acc

/-- statementParser.cpp 601-624: the loop around its body. -/
def mkLoop : Iter → Obj → Except Exc Obj
  | .forever, b => .ok (.while_ {} (.id none (c! "True")) b)
  | .while_ c, b => do
    let c ← visitExpression c
    return .while_ {} c b
  | .for_ i d, b => do
    let d ← visitDiscr d
    return .forIn {} [.expr {} (.id none i)] d b

mutual
/-- statementParser.cpp 69-172: the label is put in front; for a null pointer this is undefined (169). -/
def visitSeq : Seq → Except Exc Obj
  | .mk label s => do
    let o ← visitSeqKind s
    match label with
    | none => return o
    | some l =>
      match o with
      | .null => .error .ub
      | o => return pushLabel l o
/-- The loops of processParser.cpp 44-46 and subProgramParser.cpp 34-37: no check for null pointers. -/
def visitSeqs : List Seq → Except Exc (List Obj)
  | [] => .ok []
  | s :: l => do
    let s ← visitSeq s
    let l ← visitSeqs l
    return s :: l
/-- statementParser.cpp 36-40: `assert(st)`. -/
def visitSeqsNN : List Seq → Except Exc (List Obj)
  | [] => .ok []
  | s :: l => do
    let s ← visitSeq s
    match s with
    | .null => .error .ub
    | s =>
      let l ← visitSeqsNN l
      return s :: l
/-- statementParser.cpp 89-165. The condition of a loop is visited before the body in the code; here the body is first, which only
decides which of two exceptions is reported. -/
def visitSeqKind : SeqKind → Except Exc Obj
  | .wait on u f => visitWait on u f
  | .assert_ c r s => visitAssertion c r s
  | .report e s => visitReport e s
  | .sig a => visitSigAssign a
  | .var a => visitVarAssign a
  | .call n => do
    let e ← visitProcCall n
    return .expr {} e
  | .if_ c t el f endl => do
    let c ← visitExpression c
    let t ← visitSeqsNN t
    let el ← visitElsIfs el
    let f ← visitSeqElse f
    return appendLabel endl (.if_ {} c (.block {} .SEQ t) el f)
  | .case_ _ e alts endl => do
    let e ← visitExpression e
    let r ← visitAlts alts ([], .null)
    return appendLabel endl (.case {} .NONE .CASE e r.1 r.2)
  | .loop it body endl => do
    let b ← visitSeqsNN body
    let o ← mkLoop it (.block {} .SEQ b)
    return appendLabel endl o
  | .next l c => visitNextOrExit (c! "NEXT") l c
  | .exit l c => visitNextOrExit (c! "EXIT") l c
  | .ret e => visitReturn e
  | .null_ => .ok (.nop {})
/-- statementParser.cpp 557-564. -/
def visitElsIfs : List ElsIf → Except Exc (List Branch)
  | [] => .ok []
  | .mk c l :: r => do
    let c ← visitExpression c
    let l ← visitSeqsNN l
    let r ← visitElsIfs r
    return .mk c (.block {} .SEQ l) :: r
/-- statementParser.cpp 566-569. -/
def visitSeqElse : SeqElse → Except Exc Obj
  | .none => .ok .null
  | .some l => do
    let l ← visitSeqsNN l
    return .block {} .SEQ l
/-- statementParser.cpp 291-305. -/
def visitAlts : List CaseAlt → List Branch × Obj → Except Exc (List Branch × Obj)
  | [], acc => .ok acc
  | .mk ch l :: r, acc => do
    let ch ← visitChoices ch
    let acc ← (match ch with
      | [] => .ok acc
      | ch => do
        let b ← visitSeqsNN l
        addChoices (.block {} .SEQ b) ch acc)
    visitAlts r acc
end

end Verif.Vhdl
