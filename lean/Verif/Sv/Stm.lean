import Verif.Sv.Decl
/-!
# Model of the SystemVerilog statement visitors

src/svConvertor/{statementParser,delayParser,eventExprParser}.cpp and the template of
include/hdlConvertor/svConvertor/statementParser.h. Attributes, doc comments and positions are left out. The content of a statement is
left out if the visitor replaces the whole statement by `HdlStmNop` without looking at it.
-/
namespace Verif.Sv
open Verif

/-! ## Parse trees -/

/-- Rule `edge_identifier`. -/
inductive Edge
  | posedge | negedge | edge
deriving DecidableEq, Repr

/-- Rule `event_expression_item`; `par` is `LPAREN event_expression RPAREN`. -/
inductive EventItem
  | par (l : List EventItem)
  | ev (edge : Option Edge) (e : Exp) (iff : Option Exp)

/-- Rule `event_control`. -/
inductive EventCtl
  | star
  | id (h : HSel)
  | events (l : List EventItem)

/-- Rule `package_scope`: `none` is `$unit`. -/
abbrev PkgScope := Option Ident

/-- Rule `delay_value`. -/
inductive DelayVal
  | num (t : Str)
  | time (t : Str)
  | step1
  | real (t : Str)
  | ps (p : Option PkgScope) (i : Ident)
  | hier (h : HierId)

/-- Rule `delay_control`. -/
inductive DelayCtl
  | mtm (m : MTM)
  | value (v : DelayVal)

/-- Rule `procedural_timing_control`. -/
inductive TimingCtl
  | delay (d : DelayCtl)
  | event (e : EventCtl)
  | cycle
  | cycleRange

/-- Rule `delay_or_event_control`; `rep`: the expression of `KW_REPEAT`. -/
inductive DelayOrEvent
  | delay (d : DelayCtl)
  | event (rep : Option Exp) (e : EventCtl)

/-- Rule `unique_priority`. -/
inductive UniqPrio
  | unique | unique0 | priority
deriving DecidableEq, Repr

/-- Rule `case_keyword`. -/
inductive CaseKw
  | case | casez | casex
deriving DecidableEq, Repr

/-- Rule `block_item_declaration`. -/
inductive BlockDecl
  | data (d : DataDecl)
  | localparam (d : ParamDecl)
  | param (d : ParamDecl)
  | let_

/-- Rule `for_variable_declaration`. -/
structure ForDecl where
  var : Bool
  type : DType
  items : List (Ident × Exp)

/-- Rule `for_initialization`. -/
inductive ForInit
  | assigns (l : List (LVal × Exp))
  | decls (l : List ForDecl)

/-- Rule `sequence_match_item`. -/
inductive MatchItem
  | assign (a : OpAssign)
  | expr (e : Exp)

/-- The statements of the rule `statement_item` that are not supported at all. -/
inductive Unsupported
  | procContAssign | clockingDrive | disable | eventTrigger | wait | assertion | randsequence | randcase | expect
deriving DecidableEq, Repr

mutual
/-- Rule `statement`. -/
inductive Stm
  | mk (label : Option Ident) (item : StmItem)
/-- Rule `statement_or_null`. -/
inductive StmN
  | stm (s : Stm)
  | semi
/-- Rule `statement_item`, with the rules of its alternatives. -/
inductive StmItem
  | blocking (dst : LVal) (d : DelayOrEvent) (src : Exp)
  | arrayNew (dst : LVal)
  | classNew
  | opAssign (a : OpAssign)
  | nonblocking (dst : LVal) (d : Option DelayOrEvent) (src : Exp)
  | unsupported (u : Unsupported)
  | incDec (pre inc : Bool) (l : LVal)
  | prim (p : Prim)
  | caseInside (u : Option UniqPrio) (sel : Exp) (items : List CaseItem)
  | caseMatches (u : Option UniqPrio) (kw : CaseKw) (sel : Exp) (items : List CaseItem)
  | case (u : Option UniqPrio) (kw : CaseKw) (sel : Exp) (items : List CaseItem)
  | if_ (u : Option UniqPrio) (c : CondPred) (t : StmN)
  | ifElse (u : Option UniqPrio) (c : CondPred) (t f : StmN)
  | voidCall (e : Exp)
  | forever (b : StmN)
  | repeat_ (e : Exp) (b : StmN)
  | while_ (e : Exp) (b : StmN)
  | doWhile (b : StmN) (e : Exp)
  | for_ (init : Option ForInit) (cond : Option Exp) (step : List MatchItem) (b : StmN)
  | foreach (coll : HSel) (vars : List (Option Ident)) (b : Stm)
  | return_ (e : Option Exp)
  | break_
  | continue_
  | par (label : Option Ident) (decls : List BlockDecl) (l : List StmN) (join : Join) (endLabel : Option Ident)
  | timing (t : TimingCtl) (b : StmN)
  | seq (label : Option Ident) (decls : List BlockDecl) (l : List StmN) (endLabel : Option Ident)
/-- Rule `case_item`, also used for `case_inside_item` and `case_pattern_item`. -/
inductive CaseItem
  | dflt (s : StmN)
  | exprs (l : List Exp) (s : StmN)
end

/-! ## Delays and events -/

mutual
/-- eventExprParser.cpp 27-71. -/
def visitEventItem : EventItem → Except Exc (List Expr)
  | .par l => visitEventItems l
  | .ev edge e _ => do
    let e ← visitExp e
    return [match edge with
      | some .posedge => .mkUn none .RISING e
      | some .negedge => .mkUn none .FALLING e
      | some .edge => e
      | none => e]
/-- eventExprParser.cpp 16-25. -/
def visitEventItems : List EventItem → Except Exc (List Expr)
  | [] => .ok []
  | i :: l => do
    let i ← visitEventItem i
    let l ← visitEventItems l
    return i ++ l
end

/-- delayParser.cpp 16-42. -/
def visitEventCtl : EventCtl → Except Exc (List Expr)
  | .star => .ok [.symb none .ALL]
  | .id h => do
    let h ← visitHSel h
    return [h]
  | .events l => visitEventItems l

/-- exprParser.cpp 52-63. -/
def visitPkgScope : PkgScope → Except Exc Expr
  | none => .ok (.id none (c! "$unit"))
  | some i => visitIdent i

/-- exprParser.cpp 65-78. -/
def visitPsIdent (p : Option PkgScope) (i : Ident) : Except Exc Expr := do
  let r ← visitIdent i
  match p with
  | none => return r
  | some p =>
    let p ← visitPkgScope p
    return .mkBin none p .DOUBLE_COLON r

/-- delayParser.cpp 91-122. -/
def visitDelayVal : DelayVal → Except Exc Expr
  | .num t => .ok (.int none (svUnsigned t))
  | .time t => visitLit (.time t)
  | .step1 => .ok (.id none (c! "1step"))
  | .real t => visitLit (.real t)
  | .ps p i => visitPsIdent p i
  | .hier h => visitHierId h

/-- delayParser.cpp 75-89. -/
def visitDelayCtl : DelayCtl → Except Exc Expr
  | .mtm m => visitMTM m
  | .value v => visitDelayVal v

/-- delayParser.cpp 44-73. -/
def visitTimingCtl : TimingCtl → Except Exc (Expr × Option (List Expr))
  | .delay d => do
    let d ← visitDelayCtl d
    return (d, none)
  | .event e => do
    let e ← visitEventCtl e
    return (.null, some e)
  | .cycle => .ok (.notImpl none, none)
  | .cycleRange => .ok (.notImpl none, none)

/-- delayParser.cpp 124-142. -/
def visitDelayOrEvent : DelayOrEvent → Except Exc (Expr × Option (List Expr))
  | .delay d => do
    let d ← visitDelayCtl d
    return (d, none)
  | .event _ e => do
    let e ← visitEventCtl e
    return (.null, some e)

/-! ## Parts of statements -/

/-- statementParser.cpp 30-59: called with the fields of an `HdlStmIf` that has just been created, so its `elseIfs` are empty and
`in_preproc` is false (`i`). A failing assertion is undefined behaviour: the package is built with `NDEBUG` or aborts. -/
def collapseElifs (i : StmInfo) (cond : Expr) (t f : Obj) : Except Exc Obj :=
  match f with
  | .if_ j c t' el f' =>
    if i.preproc = j.preproc then .ok (.if_ i cond t (.mk c t' :: el) f') else .error .ub
  | f => .ok (.if_ i cond t [] f)

/-- `dynamic_cast<HdlStmBlock*>`, with wrapping of other statements; `g` changes the statements of the block
(statementParser.cpp 727-737, 804-810). -/
def inBlock (g : List Obj → List Obj) : Obj → Obj
  | .block i j l => .block i j (g l)
  | o => .block {} .SEQ (g [o])

/-- statementParser.cpp 712-744 after the visits of the parts. -/
def mkTimed (d : Expr) (sens : Option (List Expr)) (body : Obj) : Except Exc Obj :=
  match sens, d with
  | some l, .null => .ok (.process {} .NONE (some l) body)
  | some _, _ => .error .ub
  | none, .null => .ok (.process {} .NONE none body)
  | none, d => .ok (.process {} .NONE none (inBlock (fun l => .wait {} [d] :: l) body))

/-- statementParser.cpp 384-394. -/
def UniqPrio.toUniq : Option UniqPrio → Uniq
  | none => .NONE
  | some .priority => .PRIORITY
  | some .unique => .UNIQUE
  | some .unique0 => .UNIQUE0

/-- statementParser.cpp 355-362. -/
def CaseKw.toType : CaseKw → CaseType
  | .case => .CASE
  | .casez => .CASEZ
  | .casex => .CASEX

/-- statementParser.cpp 364-378 and generateParser.cpp 603-616: the branches are distributed, a null expression means `default`. -/
def splitCases (msg : Str) (dflt : Obj) : List Branch → Except Exc (List Branch × Obj)
  | [] => .ok ([], dflt)
  | .mk .null o :: l =>
    match dflt with
    | .null => splitCases msg o l
    | _ => .error (.runtime msg)
  | b :: l => do
    let (bs, d) ← splitCases msg dflt l
    return (b :: bs, d)

/-- statementParser.cpp 373. -/
def multiDefaultMsg : Str := c! "VerStatementParser.visitCase_statement case with multiple default"

/-- statementParser.cpp 421-433. -/
def visitVarAssign (blocking : Bool) (a : LVal × Exp) : Except Exc Obj := do
  let d ← visitLVal a.1
  let s ← visitExp a.2
  mkAssign d s .null none blocking

/-- statementParser.cpp 559-562, 790-794. -/
def visitVarAssigns (blocking : Bool) : List (LVal × Exp) → Except Exc (List Obj)
  | [] => .ok []
  | a :: l => do
    let a ← visitVarAssign blocking a
    let l ← visitVarAssigns blocking l
    return a :: l

/-- statementParser.cpp 534-546 for the names after the first one: the type is a copy of the first type. -/
def visitForVars (t : Expr) (latched : Bool) : List (Ident × Exp) → Except Exc (List Obj)
  | [] => .ok []
  | a :: l => do
    let name ← identStr a.1
    let t' ← t.clone
    let v ← visitExp a.2
    let l ← visitForVars t latched l
    return .id { name := name, type := t', value := v, latched := latched } :: l

/-- statementParser.cpp 519-547. -/
def visitForDecl (d : ForDecl) : Except Exc (List Obj) := do
  let t ← visitDType d.type
  match d.items with
  | [] => return []
  | a :: l =>
    let name ← identStr a.1
    let v ← visitExp a.2
    let l ← visitForVars t d.var l
    return .id { name := name, type := t, value := v, latched := d.var } :: l

/-- statementParser.cpp 564-569. -/
def visitForDecls : List ForDecl → Except Exc (List Obj)
  | [] => .ok []
  | d :: l => do
    let d ← visitForDecl d
    let l ← visitForDecls l
    return d ++ l

/-- statementParser.cpp 549-572; absent: 486-489. -/
def visitForInit : Option ForInit → Except Exc (List Obj)
  | none => .ok []
  | some (.assigns l) => visitVarAssigns true l
  | some (.decls l) => visitForDecls l

/-- statementParser.cpp 815-832. -/
def visitMatchItem : MatchItem → Except Exc Obj
  | .assign a => do
    let e ← visitOpAssign a
    return .expr {} e
  | .expr e => do
    let e ← visitExp e
    return .expr {} e

/-- statementParser.cpp 574-582. -/
def visitForStep : List MatchItem → Except Exc (List Obj)
  | [] => .ok []
  | i :: l => do
    let i ← visitMatchItem i
    let l ← visitForStep l
    return i :: l

/-- The literal 1 (statementParser.cpp 461, 494). -/
def oneE : Expr := .int none (.ofBig (.ofInt 1))

/-- statementParser.cpp 491-494. -/
def visitForCond : Option Exp → Except Exc Expr
  | none => .ok oneE
  | some e => visitExp e

/-- statementParser.cpp 584-593: only the identifiers that are there. -/
def visitLoopVars : List (Option Ident) → Except Exc (List Obj)
  | [] => .ok []
  | none :: l => visitLoopVars l
  | some i :: l => do
    let i ← visitIdent i
    let l ← visitLoopVars l
    return .expr {} i :: l

/-- statementParser.cpp 652-688. -/
def visitBlockDecl : BlockDecl → Except Exc (List Obj)
  | .data d => visitDataDecl d
  | .localparam d => do
    let l ← visitLocalparam d
    return l.map .id
  | .param d => do
    let l ← visitParamDecl d
    return l.map .id
  | .let_ => .ok []

/-- statementParser.h 63-66. -/
def visitBlockDecls : List BlockDecl → Except Exc (List Obj)
  | [] => .ok []
  | d :: l => do
    let d ← visitBlockDecl d
    let l ← visitBlockDecls l
    return d ++ l

/-- statementParser.h 62, 72-75: `identifier(0)` is the first identifier of the block, also if only the end has a label. -/
def blockLabels (label endLabel : Option Ident) : Except Exc (List Str) :=
  match label, endLabel with
  | some i, _ => do
    let s ← identStr i
    return [s]
  | none, some i => do
    let s ← identStr i
    return [s]
  | none, none => .ok []

/-- statementParser.cpp 275-278: the text of the identifier is put in front of the labels. -/
def addLabel (label : Option Ident) (o : Obj) : Obj :=
  match label with
  | none => o
  | some i => o.mapInfo fun j => { j with labels := i.text :: j.labels }

/-- statementParser.cpp 407-413: one branch for each expression. The statement is visited again for each of them; visitors have no state
(but for the log), so `s` is the result of each of these visits. -/
def visitCaseExprs (s : Obj) : List Exp → Except Exc (List Branch)
  | [] => .ok []
  | e :: l => do
    let e ← visitExp e
    let l ← visitCaseExprs s l
    return .mk e s :: l

/-! ## Statements -/

mutual
/-- statementParser.cpp 267-281. -/
def visitStm : Stm → Except Exc Obj
  | .mk label item => do
    let o ← visitStmItem item
    return addLabel label o
/-- statementParser.cpp 746-763. -/
def visitStmN : StmN → Except Exc Obj
  | .stm s => visitStm s
  | .semi => .ok (.nop {})
/-- statementParser.h 67-70. -/
def visitStmNs : List StmN → Except Exc (List Obj)
  | [] => .ok []
  | s :: l => do
    let s ← visitStmN s
    let l ← visitStmNs l
    return s :: l
/-- statementParser.cpp 129-265, with 93-127 (`void'(…)` and jumps), 283-325 (blocking assignments), 327-396 (case), 435-517 (loops),
595-650 (nonblocking assignments and blocks), 690-744 (if and timing controls). -/
def visitStmItem : StmItem → Except Exc Obj
  | .blocking dst d src => do
    let dst ← visitLVal dst
    let src ← visitExp src
    let (d, ev) ← visitDelayOrEvent d
    mkAssign dst src d ev true
  | .arrayNew dst => do
    let _ ← visitLVal dst
    return .nop {}
  | .classNew => .ok (.nop {})
  | .opAssign a => do
    let e ← visitOpAssign a
    return .expr {} e
  | .nonblocking dst d src => do
    let dst ← visitLVal dst
    let src ← visitExp src
    match d with
    | none => mkAssign dst src .null none false
    | some d =>
      let (d, ev) ← visitDelayOrEvent d
      mkAssign dst src d ev false
  | .unsupported _ => .ok (.nop {})
  | .incDec pre inc l => do
    let e ← visitExp (.incDec pre inc l)
    return .expr {} e
  | .prim p => do
    let e ← visitPrim p
    return .expr {} e
  | .caseInside u sel _ => do
    let sel ← visitExp sel
    return .case {} (UniqPrio.toUniq u) .CASE sel [] .null
  | .caseMatches u kw sel _ => do
    let sel ← visitExp sel
    return .case {} (UniqPrio.toUniq u) kw.toType sel [] .null
  | .case u kw sel items => do
    let sel ← visitExp sel
    let bs ← visitCaseItems items
    let (bs, d) ← splitCases multiDefaultMsg .null bs
    return .case {} (UniqPrio.toUniq u) kw.toType sel bs d
  | .if_ _ c t => do
    let c ← visitCondPred c
    let t ← visitStmN t
    collapseElifs {} c t .null
  | .ifElse _ c t f => do
    let c ← visitCondPred c
    let t ← visitStmN t
    let f ← visitStmN f
    collapseElifs {} c t f
  | .voidCall e => do
    let e ← visitExp e
    return .expr {} (.mkBin none (.id none (c! "void")) .CALL e)
  | .forever b => do
    let b ← visitStmN b
    return .while_ {} oneE b
  | .repeat_ e b => do
    let b ← visitStmN b
    let e ← visitExp e
    return .repeat_ {} e b
  | .while_ e b => do
    let b ← visitStmN b
    let e ← visitExp e
    return .while_ {} e b
  | .doWhile b e => do
    let b ← visitStmN b
    let e ← visitExp e
    return .doWhile {} b e
  | .for_ init cond step b => do
    let b ← visitStmN b
    let init ← visitForInit init
    let cond ← visitForCond cond
    let step ← visitForStep step
    return .for_ {} (.block {} .SEQ init) cond (.block {} .SEQ step) b
  | .foreach coll vars b => do
    let b ← visitStm b
    let coll ← visitHSel coll
    let vars ← visitLoopVars vars
    return .forIn {} vars coll b
  | .return_ none => .ok (.return_ {} .null)
  | .return_ (some e) => do
    let e ← visitExp e
    return .return_ {} e
  | .break_ => .ok (.break_ {})
  | .continue_ => .ok (.continue_ {})
  | .par label decls l join endLabel => do
    let ds ← visitBlockDecls decls
    let l ← visitStmNs l
    let labels ← blockLabels label endLabel
    return .block { labels := labels } join (ds ++ l)
  | .timing t b => do
    let (d, sens) ← visitTimingCtl t
    let b ← visitStmN b
    mkTimed d sens b
  | .seq label decls l endLabel => do
    let ds ← visitBlockDecls decls
    let l ← visitStmNs l
    let labels ← blockLabels label endLabel
    return .block { labels := labels } .SEQ (ds ++ l)
/-- statementParser.cpp 397-419. -/
def visitCaseItem : CaseItem → Except Exc (List Branch)
  | .dflt s => do
    let s ← visitStmN s
    return [.mk .null s]
  | .exprs l s => do
    let s ← visitStmN s
    visitCaseExprs s l
/-- statementParser.cpp 365-378. -/
def visitCaseItems : List CaseItem → Except Exc (List Branch)
  | [] => .ok []
  | i :: l => do
    let i ← visitCaseItem i
    let l ← visitCaseItems l
    return i ++ l
end

/-! ## Processes -/

/-- Rule `always_keyword`. -/
inductive AlwaysKw
  | always | comb | ff | latch
deriving DecidableEq, Repr

/-- statementParser.cpp 80-87. -/
def AlwaysKw.trigger : AlwaysKw → Trigger
  | .always => .NONE
  | .comb => .COMB
  | .ff => .FF
  | .latch => .LATCH

/-- statementParser.cpp 73-87. -/
def setTrigger (t : Trigger) : Obj → Obj
  | .process i _ s b => .process i t s b
  | o => .process {} t none o

/-- statementParser.cpp 61-91. -/
def visitAlways (kw : AlwaysKw) (s : Stm) : Except Exc Obj := do
  let o ← visitStm s
  match kw with
  | .always => return o
  | kw => return setTrigger kw.trigger o

/-- statementParser.cpp 797-813. -/
def visitInitial (s : StmN) : Except Exc Obj := do
  let o ← visitStmN s
  return .process {} .NONE none (inBlock (fun l => l ++ [.wait {} []]) o)

/-- statementParser.cpp 765-795. Drive strength and delays are left out: the visitor prints a message about them only. -/
def visitContAssign (l : List (LVal × Exp)) : Except Exc (List Obj) := visitVarAssigns false l

/-- Rule `elaboration_system_task`: `name` is the text of the keyword, `num` the number of `$fatal`. -/
structure ElabTask where
  name : Str
  num : Option Str
  args : List Arg

/-- statementParser.cpp 834-866. `visitList_of_arguments` appends to the vector, which may already have the number in it; the flag
`expecting_value` starts with true all the same. -/
def visitElabTask (t : ElabTask) : Except Exc Obj := do
  let n := (match t.num with
    | none => []
    | some n => [Expr.int none (svUnsigned n)])
  let l ← visitArgs true t.args
  return .expr {} (.mkCall none (.id none t.name) (n ++ l))

end Verif.Sv
