import Verif.Sv.Stm
import Verif.Spec.SvSem
/-!
# Specification: what a SystemVerilog statement means and what a statement of the AST means

As for expressions, both meanings are given relative to an arbitrary interpretation, here of the statements.
-/
namespace Verif.Spec.Sv
open Verif Verif.Sv

/-- One entry of an event control. -/
inductive Ev (V : Type)
  | any
  | change (v : V)
  | pos (v : V)
  | neg (v : V)
  /-- any edge -/
  | edge (v : V)
  | iff (e : Ev V) (c : V)

/-- Flags of a declaration; `var`: the keyword. -/
structure DeclFlags where
  const : Bool := false
  static : Bool := false
  var : Bool := false

/-- An interpretation of the statements; `V` are the values of expressions. -/
structure SAlg (V S : Type) where
  nop : S
  /-- assignment; the flag: blocking -/
  assign : Bool → V → V → S
  /-- assignment with a delay in front of the value -/
  assignDelay : Bool → V → V → V → S
  /-- assignment with an event control in front of the value -/
  assignEvent : Bool → V → V → List (Ev V) → S
  /-- evaluation of an expression: a call, `a++`, `a += b` -/
  expr : V → S
  ite : V → S → Option S → S
  case : Uniq → CaseType → V → List (V × S) → Option S → S
  forever : S → S
  while_ : V → S → S
  doWhile : S → V → S
  repeat_ : V → S → S
  /-- start, condition, step, body -/
  for_ : List S → Option V → List S → S → S
  /-- array, loop variables (one for each dimension, or none), body -/
  foreach : V → List (Option V) → S → S
  ret : Option V → S
  break_ : S
  continue_ : S
  block : Join → List S → S
  label : V → S → S
  delay : V → S → S
  onEvent : List (Ev V) → S → S
  /-- flags, name, type, value -/
  decl : DeclFlags → V → V → Option V → S
  /-- the type of a declaration without type -/
  auto : V
  /-- the type of a declared type -/
  type : V
  /-- AST only: wait for a time, and a process without sensitivity list -/
  wait : V → S
  thread : S → S
  /-- what is not looked at here -/
  other : String → S

variable {V S : Type} (A : Alg V) (B : SAlg V S)

/-! ## Meaning of the source -/

mutual
def evEventItem : EventItem → List (Ev V)
  | .par l => evEventItems l
  | .ev edge e iff =>
    let v := evExp A e
    let x := match edge with
      | none => .change v
      | some .posedge => .pos v
      | some .negedge => .neg v
      | some .edge => .edge v
    match iff with
    | none => [x]
    | some c => [.iff x (evExp A c)]
def evEventItems : List EventItem → List (Ev V)
  | [] => []
  | i :: l => evEventItem i ++ evEventItems l
end

def evEventCtl : EventCtl → List (Ev V)
  | .star => [.any]
  | .id h => [.change (evHSel A h)]
  | .events l => evEventItems A l

/-- `a.b`, `b` if there is no `a`. -/
def dot : Option V → V → V
  | none, b => b
  | some a, b => A.bin "." a b

def evHierParts (s : Option V) : List (Ident × List Exp) → Option V
  | [] => s
  | (i, bits) :: l => evHierParts (some (evBits A (dot A s (A.ident i)) bits)) l

def evHierId (h : HierId) : V :=
  dot A (evHierParts A (if h.root then some (A.kw (c! "$root")) else none) h.parts) (A.ident h.last)

def evPs : Option PkgScope → Ident → V
  | none, i => A.ident i
  | some none, i => A.bin "::" (A.kw (c! "$unit")) (A.ident i)
  | some (some p), i => A.bin "::" (A.ident p) (A.ident i)

def evDelayVal : DelayVal → V
  | .num t => A.lit (.integral (.unsigned t))
  | .time t => A.lit (.time t)
  | .step1 => A.other "1step" []
  | .real t => A.lit (.real t)
  | .ps p i => evPs A p i
  | .hier h => evHierId A h

def evDelayCtl : DelayCtl → V
  | .mtm m => evMTM A m
  | .value v => evDelayVal A v

/-- An assignment with a timing control between `=` and the value. -/
def evTimedAssign (blocking : Bool) (dst src : V) : DelayOrEvent → S
  | .delay d => B.assignDelay blocking dst src (evDelayCtl A d)
  | .event none e => B.assignEvent blocking dst src (evEventCtl A e)
  | .event (some _) _ => B.other "repeat event"

def evOpAssign (a : OpAssign) : S :=
  if a.op = .assign then B.assign true (evLVal A a.dst) (evExp A a.src)
  else B.expr (A.bin (AssignOp.sym a.op) (evLVal A a.dst) (evExp A a.src))

/-- `c1 &&& c2 ...` -/
def evCondPred (c : CondPred) : V :=
  match c.matches_, c.rest with
  | false, [] => evExp A c.head
  | _, _ => A.other "&&&" (evExp A c.head :: c.rest.map fun x => evExp A x.1)

def evType : Option DTypeOrImpl → V
  | none => B.auto
  | some (.type t) => evDType A t
  | some (.impl _) => A.other "implicit type" []

def evVarInit : VarInit → Option V
  | .none => none
  | .expr e => some (evExp A e)
  | .new => some (A.other "new" [])

/-- Lifetime of a variable, in a scope with static lifetime. -/
def isStatic : Option Lifetime → Bool
  | some .automatic => false
  | _ => true

def evVarDecl (const : Bool) (life : Option Lifetime) (t : V) (v : VarDecl) : S :=
  B.decl ⟨const, isStatic life, false⟩ (A.ident v.name) (evVDims A t v.dims) (evVarInit A v.init)

def evTypeDecl : TypeDecl → S
  | .data t n l => B.decl {} (A.ident n) B.type (some (evVDims A (evDType A t) l))
  | _ => B.other "typedef"

def evDataDecl : DataDecl → List S
  | .vars const life t l => l.map (evVarDecl A B const life (evType A B t))
  | .type d => [evTypeDecl A B d]
  | .import_ _ => [B.other "import"]
  | .nettype => [B.other "nettype"]

def evDims (t : V) : List ARange → V
  | [] => t
  | r :: l => evDims (A.index t (evARange A r)) l

def evParam (t : V) (p : ParamAssign) : S :=
  B.decl ⟨true, false, false⟩ (A.ident p.name) (evDims A t p.dims) (p.value.map (evPExpr A))

def evParamDecl : ParamDecl → List S
  | .type _ => [B.other "type parameter"]
  | .val t l => l.map (evParam A B (evType A B t))

def evBlockDecl : BlockDecl → List S
  | .data d => evDataDecl A B d
  | .localparam d => evParamDecl A B d
  /- in a block `parameter` is the same as `localparam` -/
  | .param d => evParamDecl A B d
  | .let_ => [B.other "let"]

def evVarAssign (a : LVal × Exp) : S := B.assign true (evLVal A a.1) (evExp A a.2)

def evForDecl (d : ForDecl) : List S :=
  d.items.map fun x => B.decl ⟨false, false, d.var⟩ (A.ident x.1) (evDType A d.type) (some (evExp A x.2))

def evForInit : Option ForInit → List S
  | none => []
  | some (.assigns l) => l.map (evVarAssign A B)
  | some (.decls l) => l.flatMap (evForDecl A B)

def evMatchItem : MatchItem → S
  | .assign a => evOpAssign A B a
  | .expr e => B.expr (evExp A e)

def optLabel : Option Ident → S → S
  | none, s => s
  | some i, s => B.label (A.ident i) s

def uniqOf : Option UniqPrio → Uniq
  | none => .NONE
  | some .unique => .UNIQUE
  | some .unique0 => .UNIQUE0
  | some .priority => .PRIORITY

def caseOf : CaseKw → CaseType
  | .case => .CASE
  | .casez => .CASEZ
  | .casex => .CASEX

mutual
def evStm : Stm → S
  | .mk label item => optLabel A B label (evItem item)
def evStmN : StmN → S
  | .stm s => evStm s
  | .semi => B.nop
def evStmNs : List StmN → List S
  | [] => []
  | s :: l => evStmN s :: evStmNs l
def evItem : StmItem → S
  | .blocking dst d src => evTimedAssign A B true (evLVal A dst) (evExp A src) d
  | .arrayNew _ => B.other "new[]"
  | .classNew => B.other "new"
  | .opAssign a => evOpAssign A B a
  | .nonblocking dst none src => B.assign false (evLVal A dst) (evExp A src)
  | .nonblocking dst (some d) src => evTimedAssign A B false (evLVal A dst) (evExp A src) d
  | .unsupported _ => B.other "statement"
  | .incDec pre inc l => B.expr (A.un (incDecSym pre inc) (evLVal A l))
  | .prim p => B.expr (evPrim A p)
  | .caseInside _ _ _ => B.other "case inside"
  | .caseMatches _ _ _ _ => B.other "case matches"
  | .case u kw sel items => B.case (uniqOf u) (caseOf kw) (evExp A sel) (evCases items) (evDefault items)
  | .if_ none c t => B.ite (evCondPred A c) (evStmN t) none
  | .if_ (some _) _ _ => B.other "unique if"
  | .ifElse none c t f => B.ite (evCondPred A c) (evStmN t) (some (evStmN f))
  | .ifElse (some _) _ _ _ => B.other "unique if"
  | .voidCall e => B.expr (A.call (A.kw (c! "void")) [evExp A e])
  | .forever b => B.forever (evStmN b)
  | .repeat_ e b => B.repeat_ (evExp A e) (evStmN b)
  | .while_ e b => B.while_ (evExp A e) (evStmN b)
  | .doWhile b e => B.doWhile (evStmN b) (evExp A e)
  | .for_ init cond step b => B.for_ (evForInit A B init) (cond.map (evExp A)) (step.map (evMatchItem A B)) (evStmN b)
  | .foreach coll vars b => B.foreach (evHSel A coll) (vars.map fun v => v.map A.ident) (evStm b)
  | .return_ e => B.ret (e.map (evExp A))
  | .break_ => B.break_
  | .continue_ => B.continue_
  | .par label decls l join _ => optLabel A B label (B.block join (decls.flatMap (evBlockDecl A B) ++ evStmNs l))
  | .timing (.delay d) b => B.delay (evDelayCtl A d) (evStmN b)
  | .timing (.event e) b => B.onEvent (evEventCtl A e) (evStmN b)
  | .timing .cycle _ => B.other "cycle delay"
  | .timing .cycleRange _ => B.other "cycle delay"
  | .seq label decls l _ => optLabel A B label (B.block .SEQ (decls.flatMap (evBlockDecl A B) ++ evStmNs l))
/-- The pairs (value, statement) of a `case`, in order; an item with several values stands for several pairs. -/
def evCases : List CaseItem → List (V × S)
  | [] => []
  | .dflt _ :: l => evCases l
  | .exprs es s :: l => es.map (fun e => (evExp A e, evStmN s)) ++ evCases l
/-- The (first) `default`. -/
def evDefault : List CaseItem → Option S
  | [] => none
  | .dflt s :: _ => some (evStmN s)
  | .exprs _ _ :: l => evDefault l
end

/-! ## Meaning of the AST -/

variable (leaf : Expr → V)

/-- Labels of a statement, the outermost first; statements of the preprocessor (`generate`) are no statements. -/
def withInfo (i : StmInfo) (s : Option S) : Option S :=
  if i.preproc then none else s.map fun s => i.labels.foldr (fun n s => B.label (leaf (.id none n)) s) s

/-- An optional expression. -/
def astOpt : Expr → Option (Option V)
  | .null => some none
  | e => (astEval A leaf e).map some

def astType : Expr → Option V
  | .symb _ .T_AUTO => some B.auto
  | .symb _ .T => some B.type
  | e => astEval A leaf e

/-- A type as value. -/
def astDecl (d : IdDef) : Option S := do
  let t ← astType A B leaf d.type
  let v ← astOpt A leaf d.value
  return B.decl ⟨d.const, d.static, d.latched⟩ (leaf (.id none d.name)) t v

def astEv : Expr → Option (Ev V)
  | .symb _ .ALL => some .any
  | .op _ .RISING [e] => (astEval A leaf e).map .pos
  | .op _ .FALLING [e] => (astEval A leaf e).map .neg
  | e => (astEval A leaf e).map .change

def astEvs : List Expr → Option (List (Ev V))
  | [] => some []
  | e :: l => do
    let e ← astEv A leaf e
    let l ← astEvs l
    return e :: l

/-- Delay and event control of an assignment. -/
def astAssign (blocking : Bool) (d s delay : Expr) (event : Option (List Expr)) : Option S := do
  let d ← astEval A leaf d
  let s ← astEval A leaf s
  let dl ← astOpt A leaf delay
  match dl, event with
  | none, none => return B.assign blocking d s
  | some dl, none => return B.assignDelay blocking d s dl
  | none, some ev =>
    let ev ← astEvs A leaf ev
    return B.assignEvent blocking d s ev
  | some _, some _ => none

/-- The variables of a `foreach`: identifiers. -/
def astVars : List Obj → Option (List (Option V))
  | [] => some []
  | .expr _ e :: l => do
    let e ← astEval A leaf e
    let l ← astVars l
    return some e :: l
  | _ :: _ => none

/-- An optional statement: the null pointer is its absence. -/
def optStm (o : Obj) (r : Option S) : Option (Option S) :=
  match o with
  | .null => some none
  | _ => r.map some

mutual
def astStm : Obj → Option S
  | .id d => astDecl A B leaf d
  | .assign i d s dl ev b => withInfo B leaf i (astAssign A B leaf b d s dl ev)
  | .block i j l => withInfo B leaf i ((astStms l).map (B.block j))
  | .case i u t sel cs d => withInfo B leaf i (do
    let sel ← astEval A leaf sel
    let cs ← astBranches cs
    let d ← optStm d (astStm d)
    return B.case u t sel cs d)
  | .expr i e => withInfo B leaf i ((astEval A leaf e).map B.expr)
  | .for_ i (.block _ .SEQ init) cond (.block _ .SEQ step) b => withInfo B leaf i (do
    let init ← astStms init
    let cond ← astEval A leaf cond
    let step ← astStms step
    let b ← astStm b
    return B.for_ init (some cond) step b)
  | .forIn i vars coll b => withInfo B leaf i (do
    let coll ← astEval A leaf coll
    let vars ← astVars A leaf vars
    let b ← astStm b
    return B.foreach coll vars b)
  | .repeat_ i n b => withInfo B leaf i (do
    let n ← astEval A leaf n
    let b ← astStm b
    return B.repeat_ n b)
  | .while_ i n b => withInfo B leaf i (do
    let n ← astEval A leaf n
    let b ← astStm b
    return B.while_ n b)
  | .doWhile i b n => withInfo B leaf i (do
    let b ← astStm b
    let n ← astEval A leaf n
    return B.doWhile b n)
  | .if_ i c t el f => withInfo B leaf i (do
    let c ← astEval A leaf c
    let t ← astStm t
    let f ← optStm f (astStm f)
    let f ← astElifs el f
    return B.ite c t f)
  | .process i .NONE none b => withInfo B leaf i ((astStm b).map B.thread)
  | .process i .NONE (some evs) b => withInfo B leaf i (do
    let evs ← astEvs A leaf evs
    let b ← astStm b
    return B.onEvent evs b)
  | .break_ i => withInfo B leaf i (some B.break_)
  | .continue_ i => withInfo B leaf i (some B.continue_)
  | .nop i => withInfo B leaf i (some B.nop)
  | .return_ i v => withInfo B leaf i ((astOpt A leaf v).map B.ret)
  | .wait i [d] => withInfo B leaf i ((astEval A leaf d).map B.wait)
  | _ => none
def astStms : List Obj → Option (List S)
  | [] => some []
  | o :: l => do
    let o ← astStm o
    let l ← astStms l
    return o :: l
/-- The branches of a `case`. -/
def astBranches : List Branch → Option (List (V × S))
  | [] => some []
  | .mk e o :: l => do
    let e ← astEval A leaf e
    let o ← astStm o
    let l ← astBranches l
    return (e, o) :: l
/-- The `elsif` branches in front of the `else` branch `f`. -/
def astElifs : List Branch → Option S → Option (Option S)
  | [], f => some f
  | .mk e o :: l, f => do
    let e ← astEval A leaf e
    let o ← astStm o
    let f ← astElifs l f
    return some (B.ite e o f)
end

/-- `wait` without condition is the last statement. -/
def waitsForever : List Obj → Option (List Obj)
  | [] => none
  | [.wait ⟨[], false⟩ []] => some []
  | o :: l => (waitsForever l).map (o :: ·)

/-- A process without sensitivity list that waits forever at its end runs its statements once: the statement that is run. -/
def astInitial : Obj → Option S
  | .process ⟨[], false⟩ .NONE none (.block i .SEQ l) =>
    (waitsForever l).bind fun l => withInfo B leaf i ((astStms A B leaf l).map (B.block .SEQ))
  | _ => none

end Verif.Spec.Sv
