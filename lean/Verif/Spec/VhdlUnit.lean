import Verif.Vhdl.StmTree
import Verif.HdlObj
import Verif.Spec.VhdlSem
/-!
# Specification: what VHDL statements, declarations and design units mean and what the objects of the AST mean

As for expressions, both meanings are given relative to an arbitrary interpretation. Names of declared things and labels are texts.
-/
namespace Verif.Spec
open Verif Verif.Vhdl

/-- Class of a declared object. -/
inductive DKind
  | constant
  | variable (shared : Bool)
  | signal
deriving DecidableEq

/-- Class of an interface object (generic, port, parameter). -/
inductive IKind
  | constant
  | signal (m : Mode)
  | variable (m : Mode)
deriving DecidableEq

/-- Where an interface object stands. -/
inductive ICtx | generic | port | param
deriving DecidableEq

/-- What is instantiated. -/
inductive InstKind
  | component
  | entity (arch : Option Str)
  | config
deriving DecidableEq

/-- The specification of a subprogram; `ret`: a function. -/
structure SubHead (V S : Type) where
  name : Str
  operator : Bool
  impure : Bool
  generics : List S
  params : List S
  ret : Option V

/-- Literals of an enumeration type. -/
inductive ELit (V : Type)
  | name (s : Str)
  | chr (v : V)

/-- An interpretation of statements, declarations and units; `V` are the values of expressions. -/
structure SAlg (V S : Type) where
  nop : S
  /-- signal assignment -/
  sig : V → V → S
  /-- the delay mechanism of an assignment: transport?, reject -/
  delayed : Bool → Option V → S → S
  force : Option ForceMode → V → V → S
  release : Option ForceMode → V → S
  /-- variable assignment -/
  var : V → V → S
  call : V → List V → S
  /-- condition, report, severity -/
  assert_ : V → Option V → Option V → S
  report : V → Option V → S
  /-- on, until, for -/
  wait : List V → Option V → Option V → S
  ite : V → S → Option S → S
  /-- matching (`case?`)?, selector, alternatives, `others` -/
  case : Bool → V → List (V × S) → Option S → S
  forever : S → S
  while_ : V → S → S
  /-- parameter, range, body -/
  for_ : Str → V → S → S
  /-- label of the loop, condition -/
  next : Option Str → Option V → S
  exit : Option Str → Option V → S
  ret : Option V → S
  /-- a sequence of statements -/
  block : List S → S
  label : Str → S → S
  /-- class, name, type, value -/
  decl : DKind → Str → V → Option V → S
  intf : IKind → Str → V → Option V → S
  alias_ : Str → Option V → V → S
  subtype : Str → V → S
  typeIncomplete : Str → S
  typeEnum : Str → List (ELit V) → S
  typeRange : Str → V → S
  /-- range, primary unit, other units with their values -/
  typePhys : Str → V → Str → List (Str × V) → S
  /-- element type, index ranges -/
  typeArray : Str → V → List V → S
  /-- names and types of the elements -/
  typeRecord : Str → List (Str × V) → S
  /-- head, body -/
  subprogram : SubHead V S → Option (List S) → S
  /-- header (not body)?, name, generics, contents -/
  package : Bool → Str → List S → List S → S
  component : Str → List S → List S → S
  use : List V → S
  library : Str → S
  /-- generics, ports, declarations -/
  entity : Str → List S → List S → List S → S
  /-- name, entity, declarations and statements -/
  arch : Str → V → List S → S
  /-- sensitivity: none, `all`, names -/
  process : Option (Option (List V)) → List S → S
  postponed : S → S
  guarded : S → S
  /-- block: guard, header, contents -/
  cblock : Option V → List S → List S → List S → S
  inst : Str → InstKind → V → List V → List V → S
  forGen : Str → V → S → S
  ifGen : V → S → Option S → S
  caseGen : V → List (V × S) → Option S → S
  /-- the body of a generate statement -/
  gbody : List S → S
  /-- label of an alternative of a generate statement -/
  altLabel : Str → S → S
  /-- everything else -/
  other : String → List Str → S

variable {V S : Type} (A : Alg V) (B : SAlg V S)

/-! ## Meaning of the source: statements -/

def evTarget : Target → V
  | .name n => evName A n
  | .agg l => evAgg A l

def evDelay : Option Delay → S → S
  | none, s => s
  | some .transport, s => B.delayed true none s
  | some (.inertial r), s => B.delayed false (r.map (evExpression A)) s

def evCondExprs (c : CondExprs) : V :=
  firstTrue A.truth ((c.dflt.map (evExpression A)).getD A.unaffected)
    ((c.head :: c.tail).map fun p => (evExpression A p.1, evExpression A p.2))

def Choice.isOthers : Choice → Bool
  | .others => true
  | _ => false

/-- The pairs (choice, statement) of alternatives, in order; an alternative with several choices stands for several pairs. -/
def evAlts (l : List (List Choice × S)) : List (V × S) :=
  l.flatMap fun p => (p.1.filter fun c => !Choice.isOthers c).map fun c => (evChoice A c, p.2)

/-- The alternative with the choice `others`. -/
def evOthers : List (List Choice × S) → Option S
  | [] => none
  | p :: l => if p.1.any Choice.isOthers then some p.2 else evOthers l

def evSigAssign : SigAssign → S
  | .wave t d w => evDelay A B d (B.sig (evTarget A t) (evWaveform A w))
  | .force t m e => B.force m (evTarget A t) (evExpression A e)
  | .release t m => B.release m (evTarget A t)
  | .cond t d c => evDelay A B d (B.sig (evTarget A t) (evCondWaves A c))
  | .condForce t m c => B.force m (evTarget A t) (evCondExprs A c)
  | .sel e q t d l =>
    let alts := l.map fun p => (p.2, evDelay A B d (B.sig (evTarget A t) (evWaveform A p.1)))
    B.case q (evExpression A e) (evAlts A alts) (evOthers alts)
  | .selForce e q t m l =>
    let alts := l.map fun p => (p.2, B.force m (evTarget A t) (evExpression A p.1))
    B.case q (evExpression A e) (evAlts A alts) (evOthers alts)

def evVarAssign : VarAssign → S
  | .simple t e => B.var (evTarget A t) (evExpression A e)
  | .cond t c => B.var (evTarget A t) (evCondExprs A c)
  | .sel e q t l =>
    let alts := l.map fun p => (p.2, B.var (evTarget A t) (evExpression A p.1))
    B.case q (evExpression A e) (evAlts A alts) (evOthers alts)

/-- A procedure call: `p`, `p(a, b)`. (`p(a to b)` looks like a slice.) -/
def evCall : Name → S
  | .assoc n l => B.call (evName A n) (evAssocs A l)
  | .slice n r => B.call (evName A n) [evERange A r]
  | n => B.call (evName A n) []

def evLoop : Iter → S → S
  | .forever, b => B.forever b
  | .while_ c, b => B.while_ (evExpression A c) b
  | .for_ i d, b => B.for_ i (evDiscr A d) b

def evLabel : Option Str → S → S
  | none, s => s
  | some l, s => B.label l s

mutual
def evSeq : Seq → S
  | .mk label s => evLabel B label (evSeqKind s)
def evSeqs : List Seq → List S
  | [] => []
  | s :: l => evSeq s :: evSeqs l
def evSeqKind : SeqKind → S
  | .wait on u f => B.wait (on.map (evName A)) (u.map (evExpression A)) (f.map (evExpression A))
  | .assert_ c r s => B.assert_ (evExpression A c) (r.map (evExpression A)) (s.map (evExpression A))
  | .report e s => B.report (evExpression A e) (s.map (evExpression A))
  | .sig a => evSigAssign A B a
  | .var a => evVarAssign A B a
  | .call n => evCall A B n
  | .if_ c t el f _ => B.ite (evExpression A c) (B.block (evSeqs t)) (evElsIfs el (evSeqElse f))
  | .case_ q e alts _ => B.case q (evExpression A e) (evAlts A (evCaseAlts alts)) (evOthers (evCaseAlts alts))
  | .loop it b _ => evLoop A B it (B.block (evSeqs b))
  | .next l c => B.next l (c.map (evExpression A))
  | .exit l c => B.exit l (c.map (evExpression A))
  | .ret e => B.ret (e.map (evExpression A))
  | .null_ => B.nop
/-- The branches behind the first one. -/
def evElsIfs : List ElsIf → Option S → Option S
  | [], f => f
  | .mk c l :: r, f => some (B.ite (evExpression A c) (B.block (evSeqs l)) (evElsIfs r f))
def evSeqElse : SeqElse → Option S
  | .none => none
  | .some l => some (B.block (evSeqs l))
def evCaseAlts : List CaseAlt → List (List Choice × S)
  | [] => []
  | .mk ch l :: r => (ch, B.block (evSeqs l)) :: evCaseAlts r
end

/-! ## Meaning of the source: declarations -/

/-- One declaration for each name. -/
def evVars (f : Str → V → Option V → S) (v : VarList) : List S :=
  v.names.map fun n => f n (evSubInd A v.type) (v.init.map (evExpression A))

/-- The class of an interface object declared without keyword, and its mode. -/
def defaultKind (c : ICtx) (m : Mode) : IKind :=
  match c, m with
  | .generic, _ => .constant
  | .port, m => .signal m
  | .param, .in_ => .constant
  | .param, m => .variable m

def evIntf (c : ICtx) : Intf → List S
  | .const v _ => evVars A (B.intf .constant) v
  | .sig kw v m false =>
    evVars A (B.intf (if kw then .signal (m.getD .in_) else defaultKind c (m.getD .in_))) v
  | .sig _ v _ true => [B.other "bus" v.names]
  | .var v m => evVars A (B.intf (.variable (m.getD .in_))) v
  | .file l _ => [B.other "file" l]
  | .type n => [B.other "type" [n]]
  | .subprogram n => [B.other "subprogram" [n]]
  | .package n => [B.other "package" [n]]

def evEnumLit : EnumLit → ELit V
  | .ident t => .name t
  | .chr t => .chr (A.lit (.chr t))

def evPhysLit : PhysLit → V
  | .name n => evName A n
  | .dec t n => A.bin "unit" (A.dec t) (evName A n)
  | .based t n => A.bin "unit" (A.based t) (evName A n)

def evTypeDef (name : Str) : TypeDef → S
  | .enum l => B.typeEnum name (l.map (evEnumLit A))
  | .range r => B.typeRange name (evRange A r)
  | .phys r p l => B.typePhys name (evRange A r) p (l.map fun u => (u.1, evPhysLit A u.2))
  | .unbounded l e => B.typeArray name (evSubInd A e) (l.map fun n => A.bin "range" (evName A n) A.opn)
  | .constrained l e => B.typeArray name (evSubInd A e) (evDiscrs A l)
  | .record l => B.typeRecord name (l.flatMap fun p => p.1.map fun n => (n, evSubInd A p.2))
  | .access _ => B.other "access" [name]
  | .file _ => B.other "file type" [name]
  | .protected_ => B.other "protected" [name]

/-- The path of a selected name. -/
def evSelName (n : SelName) : List V := A.lit (.ident n.head) :: n.rest.map (evSuffix A)

def desigName : Designator → Str
  | .ident t => t
  | .opSymbol t => t

def desigOp : Designator → Bool
  | .ident _ => false
  | .opSymbol _ => true

def evSubSpec : SubSpec → SubHead V S
  | .proc d g p => ⟨desigName d, desigOp d, false, g.flatMap (evIntf A B .generic), p.flatMap (evIntf A B .param), none⟩
  | .func imp d g p r => ⟨desigName d, desigOp d, imp, g.flatMap (evIntf A B .generic), p.flatMap (evIntf A B .param), some (evName A r)⟩

mutual
def evDecl : Decl → List S
  | .subprogram s => [B.subprogram (evSubSpec A B s) none]
  | .subInst n => [B.other "subprogram instantiation" [n]]
  | .package n g l => [B.package true n (g.flatMap (evIntf A B .generic)) (evDecls l)]
  | .packageInst n => [B.other "package instantiation" [n]]
  | .typeIncomplete n => [B.typeIncomplete n]
  | .type n t => [evTypeDef A B n t]
  | .subtype n s => [B.subtype n (evSubInd A s)]
  | .constant v => evVars A (B.decl .constant) v
  | .variable sh v => evVars A (B.decl (.variable sh)) v
  | .signal v false => evVars A (B.decl .signal) v
  | .signal v true => [B.other "signal kind" v.names]
  | .file l _ => [B.other "file" l]
  | .alias_ d t n false => [B.alias_ d (t.map (evSubInd A)) (evName A n)]
  | .alias_ d _ _ true => [B.other "alias with signature" [d]]
  | .attrDecl n => [B.other "attribute" [n]]
  | .attrSpec n => [B.other "attribute specification" [n]]
  | .use l => l.map fun n => B.use (evSelName A n)
  | .groupTemplate n => [B.other "group template" [n]]
  | .group n => [B.other "group" [n]]
  | .disconnect => [B.other "disconnect" []]
  | .subBody s ds ss => [B.subprogram (evSubSpec A B s) (some (evDecls ds ++ evSeqs A B ss))]
  | .packageBody n l => [B.package false n [] (evDecls l)]
  | .component n g p => [B.component n (g.flatMap (evIntf A B .generic)) (p.flatMap (evIntf A B .port))]
  | .configSpec => [B.other "configuration specification" []]
def evDecls : List Decl → List S
  | [] => []
  | d :: l => evDecl d ++ evDecls l
end

/-! ## Meaning of the source: concurrent statements and design units -/

def evSens : ProcSens → Option (Option (List V))
  | .none => Option.none
  | .all => some Option.none
  | .names l => some (some (l.map (evName A)))

def evFlag (f : S → S) (b : Bool) (s : S) : S := if b then f s else s

def evConcKind : ConcKind → S
  | .process pp sens ds ss => evFlag B.postponed pp (B.process (evSens A sens) (evDecls A B ds ++ evSeqs A B ss))
  | .call pp n => evFlag B.postponed pp (evCall A B n)
  | .assert_ pp c r s =>
    evFlag B.postponed pp (B.assert_ (evExpression A c) (r.map (evExpression A)) (s.map (evExpression A)))
  | .assign pp g t d w =>
    evFlag B.postponed pp (evFlag B.guarded g (evDelay A B d (B.sig (evTarget A t) (evWaveform A w))))
  | .assignCond pp g t d c =>
    evFlag B.postponed pp (evFlag B.guarded g (evDelay A B d (B.sig (evTarget A t) (evCondWaves A c))))
  | .assignSel pp g e q t d l => evFlag B.postponed pp (evFlag B.guarded g (evSigAssign A B (.sel e q t d l)))

def evInstKind : InstUnit → InstKind
  | .component _ _ => .component
  | .entity _ a => .entity a
  | .config _ => .config

def evInstUnit : InstUnit → V
  | .component _ n => evName A n
  | .entity n _ => evName A n
  | .config n => evName A n

def evMap : Option (List Assoc) → List V
  | none => []
  | some l => evAssocs A l

def evAltLabel : Option Str → S → S
  | none, s => s
  | some l, s => B.altLabel l s

mutual
def evConc : Conc → S
  | .plain label s => evLabel B label (evConcKind A B s)
  | .block label g gs ps ds ss =>
    B.label label (B.cblock (g.map (evExpression A)) (gs.flatMap (evIntf A B .generic)) (ps.flatMap (evIntf A B .port))
      (evDecls A B ds ++ evConcs ss))
  | .inst label u g p => B.inst label (evInstKind u) (evInstUnit A u) (evMap A g) (evMap A p)
  | .forGen label i d b _ => B.label label (B.forGen i (evDiscr A d) (evGenBody b))
  | .ifGen label c el f _ => B.label label (evGenCond c (evGenConds el (evGenElse f)))
  | .caseGen label e alts _ => B.label label (B.caseGen (evExpression A e) (evAlts A (evGenAlts alts)) (evOthers (evGenAlts alts)))
def evConcs : List Conc → List S
  | [] => []
  | c :: l => evConc c :: evConcs l
def evGenCond : GenCond → Option S → S
  | .mk l c b, f => B.ifGen (evExpression A c) (evAltLabel B l (evGenBody b)) f
def evGenConds : List GenCond → Option S → Option S
  | [], f => f
  | c :: l, f => some (evGenCond c (evGenConds l f))
def evGenElse : GenElse → Option S
  | .none => none
  | .some l b => some (evAltLabel B l (evGenBody b))
def evGenAlts : List GenAlt → List (List Choice × S)
  | [] => []
  | .mk l ch b :: r => (ch, evAltLabel B l (evGenBody b)) :: evGenAlts r
def evGenBody : GenBody → S
  | .mk ds _ ss => B.gbody (evDecls A B ds ++ evConcs ss)
end

def evContextItem : ContextItem → List S
  | .library l => l.map B.library
  | .use l => l.map fun n => B.use (evSelName A n)
  | .contextRef l => l.map fun n => B.other "context" [n.head]

def evLibUnit : LibUnit → List S
  | .entity n g p ds [] => [B.entity n (g.flatMap (evIntf A B .generic)) (p.flatMap (evIntf A B .port)) (evDecls A B ds)]
  | .entity n _ _ _ _ => [B.other "entity with statements" [n]]
  | .config n => [B.other "configuration" [n]]
  | .package n g l => [B.package true n (g.flatMap (evIntf A B .generic)) (evDecls A B l)]
  | .packageInst n => [B.other "package instantiation" [n]]
  | .context n => [B.other "context declaration" [n]]
  | .arch n e ds ss => [B.arch n (evName A e) (evDecls A B ds ++ evConcs A B ss)]
  | .packageBody n l => [B.package false n [] (evDecls A B l)]

def evDesignFile (l : List DesignUnit) : List S :=
  l.flatMap fun u => u.ctx.flatMap (evContextItem A B) ++ evLibUnit A B u.unit

/-! ## Meaning of the AST -/

variable (leaf : Expr → V)

/-- The label of a statement. A label behind `end` repeats the label of the statement. -/
def withLabel : List Str → Option S → Option S
  | [], s => s
  | l :: r, s => if r.all (· = l) then s.map (B.label l) else none

/-- An optional expression. -/
def astOpt : Expr → Option (Option V)
  | .null => some none
  | e => (astEval A leaf e).map some

/-- The arguments of `wait`: names, then the negated condition of `until`, then a time. -/
def astWait : List Expr → Option (List V × Option V × Option V)
  | [] => some ([], none, none)
  | [.op _ .NEG [e], .op p .UNIT_SPEC l] => do
    let e ← astEval A leaf e
    let t ← astEval A leaf (.op p .UNIT_SPEC l)
    return ([], some e, some t)
  | [.op _ .NEG [e]] => do
    let e ← astEval A leaf e
    return ([], some e, none)
  | [.op p .UNIT_SPEC l] => do
    let t ← astEval A leaf (.op p .UNIT_SPEC l)
    return ([], none, some t)
  | e :: l => do
    let e ← astEval A leaf e
    let r ← astWait l
    return (e :: r.1, r.2)

/-- `next` and `exit`: the label (the symbol `NULL`: none) and the condition. -/
def astNext : List Expr → Option (Option Str × Option V)
  | [.symb _ .NULL] => some (none, none)
  | [.id _ l] => some (some l, none)
  | [.symb _ .NULL, c] => (astEval A leaf c).map fun c => (none, some c)
  | [.id _ l, c] => (astEval A leaf c).map fun c => (some l, some c)
  | _ => none

/-- A call as statement; the names of `assert`, `report`, `next` and `exit` are keywords, no procedure has such a name. -/
def astCall : Expr → Option S
  | .op _ .CALL (f :: args) =>
    match f with
    | .id p s =>
      if s = c! "assert" then
        match astEvals A leaf args with
        | some [c] => some (B.assert_ c none none)
        | some [c, r] => some (B.assert_ c (some r) none)
        | some [c, r, s] => some (B.assert_ c (some r) (some s))
        | _ => none
      else if s = c! "report" then
        match astEvals A leaf args with
        | some [e] => some (B.report e none)
        | some [e, s] => some (B.report e (some s))
        | _ => none
      else if s = c! "NEXT" then (astNext A leaf args).map fun r => B.next r.1 r.2
      else if s = c! "EXIT" then (astNext A leaf args).map fun r => B.exit r.1 r.2
      else (astEvals A leaf args).map (B.call (leaf (.id p s)))
    | f => do
      let f ← astEval A leaf f
      let args ← astEvals A leaf args
      return B.call f args
  | _ => none

def astMode : Dir → Option Mode
  | .IN => some .in_
  | .OUT => some .out
  | .INOUT => some .inout
  | .BUFFER => some .buffer
  | .LINKAGE => some .linkage
  | _ => none

/-- Generics are constants, ports are signals. A parameter is a constant if it says so or is an input, otherwise a variable. -/
def astIKind (c : ICtx) (d : IdDef) : Option IKind :=
  match c, d.const, d.latched with
  | .generic, _, false => some .constant
  | .port, false, false => (astMode d.dir).map .signal
  | .param, true, false => some .constant
  | .param, false, true => (astMode d.dir).map .variable
  | .param, false, false => (astMode d.dir).map (defaultKind .param)
  | _, _, _ => none

def astIntf (c : ICtx) (d : IdDef) : Option S :=
  if d.static || d.shared || d.alias_ then none
  else do
    let k ← astIKind c d
    let t ← astEval A leaf d.type
    let v ← astOpt A leaf d.value
    return B.intf k d.name t v

def astIntfs (c : ICtx) : List IdDef → Option (List S)
  | [] => some []
  | d :: l => do
    let d ← astIntf A B leaf c d
    let l ← astIntfs c l
    return d :: l

/-- The value of a named literal is null, a character has no name. -/
def astEnum : List (Option Str) → List Expr → Option (List (ELit V))
  | [], [] => some []
  | some s :: ns, .null :: vs => (astEnum ns vs).map (.name s :: ·)
  | none :: ns, v :: vs => do
    let v ← astEval A leaf v
    let l ← astEnum ns vs
    return .chr v :: l
  | _, _ => none

def astUnits : List Str → List Expr → Option (List (Str × V))
  | [], [] => some []
  | n :: ns, v :: vs => do
    let v ← astEval A leaf v
    let l ← astUnits ns vs
    return (n, v) :: l
  | _, _ => none

/-- The value of a declared type. -/
def astTypeDef (name : Str) : Expr → Option S
  | .null => some (B.typeIncomplete name)
  | .enumDef _ _ .null ns vs => (astEnum A leaf ns vs).map (B.typeEnum name)
  | .op _ .RANGE [r] => (astEval A leaf r).map (B.typeRange name)
  | .physDef _ _ (.op _ .RANGE [r]) (p :: ns) (.null :: vs) => do
    let r ← astEval A leaf r
    let us ← astUnits A leaf ns vs
    return B.typePhys name r p us
  | .op _ .INDEX (e :: l) => do
    let e ← astEval A leaf e
    let l ← astEvals A leaf l
    return B.typeArray name e l
  | _ => none

/-- Variables are latched, constants are constant, signals are neither. -/
def astDecl (d : IdDef) : Option S :=
  match d.type, d.dir, d.static with
  | .symb _ .T, .INTERNAL, false =>
    if d.latched || d.const || d.shared || d.alias_ then none else astTypeDef A B leaf d.name d.value
  | .symb _ .T_SUBTYPE, .INTERNAL, false =>
    if d.latched || d.const || d.shared || d.alias_ then none else (astEval A leaf d.value).map (B.subtype d.name)
  | t, .INTERNAL, false =>
    match d.alias_, d.const, d.latched, d.shared with
    | true, false, false, false => do
      let t ← astOpt A leaf t
      let v ← astEval A leaf d.value
      return B.alias_ d.name t v
    | false, true, false, false => do
      let t ← astEval A leaf t
      let v ← astOpt A leaf d.value
      return B.decl .constant d.name t v
    | false, false, true, sh => do
      let t ← astEval A leaf t
      let v ← astOpt A leaf d.value
      return B.decl (.variable sh) d.name t v
    | false, false, false, false => do
      let t ← astEval A leaf t
      let v ← astOpt A leaf d.value
      return B.decl .signal d.name t v
    | _, _, _, _ => none
  | _, _, _ => none

/-- The elements of a record. -/
def astMembers : List IdDef → Option (List (Str × V))
  | [] => some []
  | d :: l => do
    let t ← astEval A leaf d.type
    let l ← astMembers l
    return (d.name, t) :: l

def astSens : Option (List Expr) → Option (Option (Option (List V)))
  | none => some none
  | some [.symb _ .ALL] => some (some none)
  | some l => (astEvals A leaf l).map fun l => some (some l)

/-- An optional statement: the null pointer is its absence. -/
def optObj (o : Obj) (r : Option S) : Option (Option S) :=
  match o with
  | .null => some none
  | _ => r.map some

mutual
def astObj : Obj → Option S
  | .id d => astDecl A B leaf d
  | .record n l => (astMembers A leaf l).map (B.typeRecord n)
  | .fn h b => do
    let ps ← astIntfs A B leaf .param h.params
    let r ← astOpt A leaf h.ret
    let b ← astObjs b
    if h.static || h.virt || h.task then none
    else some (B.subprogram ⟨h.name, h.operator, h.impure, [], ps, r⟩ (if h.declOnly then none else some b))
  | .idspace n d l => (astObjs l).map (B.package d n [])
  | .modDec n g p [] => do
    let g ← astIntfs A B leaf .generic g
    let p ← astIntfs A B leaf .port p
    return B.component n g p
  | .inst (.id _ n) m g p => do
    let m ← astEval A leaf m
    let g ← astEvals A leaf g
    let p ← astEvals A leaf p
    return B.inst n .component m g p
  | .import_ ⟨[], false⟩ l => (astEvals A leaf l).map B.use
  | .library n => some (B.library n)
  | .assign ⟨ls, false⟩ d s .null none b => withLabel B ls (do
    let d ← astEval A leaf d
    let s ← astEval A leaf s
    return if b then B.var d s else B.sig d s)
  | .block ⟨ls, false⟩ .SEQ l => withLabel B ls ((astObjs l).map B.block)
  | .block ⟨[], true⟩ .SEQ l => (astObjs l).map B.gbody
  | .block ⟨a :: ls, true⟩ .SEQ l => withLabel B (a :: ls) ((astObjs l).map (B.cblock none [] []))
  | .case ⟨ls, g⟩ .NONE .CASE sel cs d => withLabel B ls (do
    let sel ← astEval A leaf sel
    let cs ← astBranches cs
    let d ← optObj d (astObj d)
    return if g then B.caseGen sel cs d else B.case false sel cs d)
  | .expr ⟨ls, false⟩ e => withLabel B ls (astCall A B leaf e)
  | .forIn ⟨ls, g⟩ [.expr ⟨[], false⟩ (.id _ i)] coll b => withLabel B ls (do
    let coll ← astEval A leaf coll
    let b ← astObj b
    return if g then B.forGen i coll b else B.for_ i coll b)
  | .while_ ⟨ls, false⟩ c b => withLabel B ls (do
    let c ← astEval A leaf c
    let b ← astObj b
    return B.while_ c b)
  | .if_ ⟨ls, g⟩ c t el f => withLabel B ls (do
    let c ← astEval A leaf c
    let t ← astObj t
    let f ← optObj f (astObj f)
    let f ← astElifs g el f
    return if g then B.ifGen c t f else B.ite c t f)
  | .process ⟨ls, false⟩ .NONE sens (.block ⟨[], false⟩ .SEQ l) => withLabel B ls (do
    let sens ← astSens A leaf sens
    let l ← astObjs l
    return B.process sens l)
  | .nop ⟨ls, false⟩ => withLabel B ls (some B.nop)
  | .return_ ⟨ls, false⟩ v => withLabel B ls ((astOpt A leaf v).map B.ret)
  | .wait ⟨ls, false⟩ l => withLabel B ls ((astWait A leaf l).map fun r => B.wait r.1 r.2.1 r.2.2)
  | _ => none
def astObjs : List Obj → Option (List S)
  | [] => some []
  | o :: l => do
    let o ← astObj o
    let l ← astObjs l
    return o :: l
def astBranches : List Branch → Option (List (V × S))
  | [] => some []
  | .mk e o :: l => do
    let e ← astEval A leaf e
    let o ← astObj o
    let l ← astBranches l
    return (e, o) :: l
/-- The `elsif` branches in front of the `else` branch `f`. -/
def astElifs (g : Bool) : List Branch → Option S → Option (Option S)
  | [], f => some f
  | .mk e o :: l, f => do
    let e ← astEval A leaf e
    let o ← astObj o
    let f ← astElifs g l f
    return some (if g then B.ifGen e o f else B.ite e o f)
end

/-- An object of the context: entities and architectures, packages, libraries and use clauses. -/
def astTop : Obj → Option S
  | .modDec n g p l => do
    let g ← astIntfs A B leaf .generic g
    let p ← astIntfs A B leaf .port p
    let l ← astObjs A B leaf l
    return B.entity n g p l
  | .modDef n e .null l => do
    let e ← astEval A leaf e
    let l ← astObjs A B leaf l
    return B.arch n e l
  | o => astObj A B leaf o

def astTops : List Obj → Option (List S)
  | [] => some []
  | o :: l => do
    let o ← astTop A B leaf o
    let l ← astTops l
    return o :: l

end Verif.Spec
