import Verif.Sv.Module
import Verif.Spec.SvStm
import Verif.Spec.SvDecl
/-!
# Specification: what the items of a SystemVerilog module mean and what the objects of the AST mean

As for expressions and statements, both meanings are given relative to an arbitrary interpretation.
-/
namespace Verif.Spec.Sv
open Verif Verif.Sv

/-- A connection of an instance; no value: left open. -/
inductive Conn (V : Type)
  | all
  | named (n : V) (v : Option V)
  | pos (v : Option V)

/-- A port of a module or an argument of a task or function. -/
structure Port (V : Type) where
  dir : Dir
  flags : DeclFlags
  name : V
  type : V
  value : Option V

/-- An interpretation of module items; `S` are the meanings of statements and declarations. -/
structure MAlg (V S M : Type) where
  /-- a declaration; a lone `;`; an elaboration task -/
  stm : S → M
  /-- name (with dimensions), module, parameters, connections -/
  inst : V → V → List V → List (Conn V) → M
  /-- `and`, `or`, ...: name, output, inputs -/
  gate : NGate → Option V → V → List V → M
  /-- `assign a = b` -/
  assign : V → V → M
  initial : S → M
  always : Trigger → Option (List (Ev V)) → S → M
  /-- static, task, name, type of the result, arguments, body -/
  fn : Bool → Bool → V → V → List (Port V) → List S → M
  /-- generate loop; the flag: the variable is declared by the loop; name, start, condition, step, body -/
  for_ : Bool → V → V → V → V → M → M
  if_ : V → M → Option M → M
  case : V → List (V × M) → Option M → M
  /-- generate block with its name -/
  block : Option V → List M → M
  /-- name, parameters, ports, items -/
  module_ : V → List S → List (Port V) → List M → M
  /-- what is not looked at here -/
  other : String → M

variable {V S M : Type} (A : Alg V) (B : SAlg V S) (N : MAlg V S M)

/-! ## Names -/

/-- The names declared by a list of parameters. -/
def paramNames : ParamDecl → List Ident
  | .type l => l.map (·.name)
  | .val _ l => l.map (·.name)

def typeDeclName : TypeDecl → Ident
  | .data _ n _ => n
  | .fwd n => n
  | .scoped _ _ _ n => n
  | .bare n => n

def dataNames : DataDecl → List Ident
  | .vars _ _ _ l => l.map (·.name)
  | .type d => [typeDeclName d]
  | .import_ _ => []
  | .nettype => []

/-- The names declared by an item of a block. -/
def blockNames : BlockDecl → List Ident
  | .data d => dataNames d
  | .localparam d => paramNames d
  | .param d => paramNames d
  | .let_ => []

def netNames : NetDecl → List Ident
  | .interconnect => []
  | .net _ _ _ l => l.map (·.name)
  | .user _ l => l.map (·.name)

def tfItemNames : TfItem → List Ident
  | .block d => blockNames d
  | .port _ => []

def tfPortNames : TfItem → List Ident
  | .block _ => []
  | .port d => d.items.map (·.name)

def tfName : TfDef → Ident
  | .task _ d => d.name
  | .function _ _ d => d.name

/-- The names declared by an item of a module. -/
def genItemNames : GenItem → List Ident
  | .localparam d => paramNames d
  | .net d => netNames d
  | .data d => dataNames d
  | .tf d => [tfName d]
  | .genvar l => l
  | _ => []

mutual
/-- The names declared outside of the blocks of generate constructs. -/
def gItemNames : GItem → List Ident
  | .item i => genItemNames i
  | .region l => gItemsNames l
  | _ => []
def gItemsNames : List GItem → List Ident
  | [] => []
  | g :: l => gItemNames g ++ gItemsNames l
end

/-- Different names. -/
def apart (l l' : List Ident) : Prop := ∀ i ∈ l, ∀ j ∈ l', identStr i ≠ identStr j

/-! ## Meaning of the source -/

/-! ### Instances and gates -/

def evNamedConn : NamedConn → Conn V
  | .star => .all
  /- `.a` is `.a(a)` -/
  | .name i => .named (A.ident i) (some (A.ident i))
  | .empty i => .named (A.ident i) none
  | .val i e => .named (A.ident i) (some (evExp A e))

def evConns : Conns → List (Conn V)
  | .ordered l => l.map fun e => .pos (e.map (evExp A))
  | .named l => l.map (evNamedConn A)

def evParamMap : PVA → List V
  | .none => []
  | .ordered l => evPExprs A l
  | .named l => evNamedPs A l

def evInst (m : ModInst) : List M :=
  m.insts.map fun h => N.inst (evDims A (A.ident h.name) h.dims) (A.ident m.module_) (evParamMap A m.params) (evConns A h.conns)

def evGateName : Option (Ident × List ARange) → Option V
  | none => none
  | some (i, dims) => some (evDims A (A.ident i) dims)

/-- `buf (o1, ..., on, i)` drives each output. -/
def evNOut (neg : Bool) (g : NOutInst) : List M :=
  g.outs.map fun o => N.assign (evLVal A o) (if neg then A.un "~" (evExp A g.inp) else evExp A g.inp)

def evGate : Gate → List M
  | .nOut neg l => l.flatMap (evNOut A N neg)
  | .nIn g l => l.map fun i => N.gate g (evGateName A i.name) (evLVal A i.out) (i.ins.map (evExp A))
  | .other => [N.other "gate"]

/-! ### Types of nets, ports and arguments -/

def evPacked (t : V) : List (Option ARange) → V
  | [] => t
  | none :: l => evPacked (A.un "[]" t) l
  | some r :: l => evPacked (A.index t (evARange A r)) l

/-- A type without type name; `kw`: the kind of net, or `wire` if none is written. -/
def evImpl (kw : Str) : ImplType → V
  | ⟨s, []⟩ => A.param (A.kw kw) [A.nul, evSign A s]
  | ⟨s, some r :: l⟩ => evPacked A (A.param (A.kw kw) [evARange A r, evSign A s]) l
  | ⟨s, none :: l⟩ => evPacked A (A.other "[]" [A.kw kw, evSign A s]) l

/-- The type of a net of the kind `kw`, or of an argument or port; if nothing but `wire` is written, the type is left open. -/
def evTypeI (kw : Str) : Option DTypeOrImpl → V
  | none => if kw = c! "wire" then B.auto else A.kw kw
  | some (.type t) => if kw = c! "wire" then evDType A t else A.param (A.kw kw) [evDType A t]
  | some (.impl t) => evImpl A kw t

def evNet (t : V) (n : NetAssign) : S := B.decl {} (A.ident n.name) (evDims A t n.dims) (n.value.map (evExp A))

def evNetDecl : NetDecl → List S
  | .interconnect => [B.other "interconnect"]
  | .net kw _ t l => l.map (evNet A B (evTypeI A B kw t))
  | .user t l => l.map (evNet A B (A.ident t))

/-! ### Tasks and functions -/

def isConstRef : TfDir → Bool
  | .constRef => true
  | .dir _ => false

def evTfPortDecl (d : TfPortDecl) : List (Port V) :=
  d.items.map fun v => ⟨tfDirOf d.dir, ⟨isConstRef d.dir, false, d.var⟩, A.ident v.name, evVDims A (evTypeI A B (c! "wire") d.type) v.dims,
    v.value.map (evExp A)⟩

/-- The arguments `dir type name dims = value`. Without direction an argument has that of the argument before, without direction and
type also its type. -/
def evTfPorts (dir : TfDir) (t : V) : List TfPort → List (Port V)
  | [] => []
  | p :: l =>
    let t := match p.dir, p.type with
      | none, none => t
      | _, ty => evTypeI A B (c! "wire") ty
    let dir := p.dir.getD dir
    ⟨tfDirOf dir, ⟨isConstRef dir, false, p.var⟩, argVal A (p.name.map A.ident), evVDims A t p.dims, p.value.map (evExp A)⟩ :: evTfPorts dir t l

def evTfItemPorts : TfItem → List (Port V)
  | .block _ => []
  | .port d => evTfPortDecl A B d

def evTfItemDecls : TfItem → List S
  | .block d => evBlockDecl A B d
  | .port _ => []

def evTfHeadPorts : TfHead → List (Port V)
  | .items l => l.flatMap (evTfItemPorts A B)
  | .ports l _ => evTfPorts A B (.dir .input) B.auto l

def evTfHeadDecls : TfHead → List S
  | .items l => l.flatMap (evTfItemDecls A B)
  | .ports _ ds => ds.flatMap (evBlockDecl A B)

def evFnRet : FnRet → V
  | .none => B.auto
  | .void => A.kw (c! "void")
  | .type t => evDType A t
  | .impl t => evImpl A (c! "wire") t

def evTfDecl (static task : Bool) (ret : V) (d : TfDecl) : M :=
  N.fn static task (dot A (d.prefix_.map A.ident) (A.ident d.name)) ret (evTfHeadPorts A B d.head) (evTfHeadDecls A B d.head ++ evStmNs A B d.body)

/-- A task or function without `automatic` is static. -/
def evTf : TfDef → M
  | .task life d => evTfDecl A B N (isStatic life) true (A.kw (c! "void")) d
  | .function life ret d => evTfDecl A B N (isStatic life) false (evFnRet A B ret) d

/-! ### Processes and generate constructs -/

def evAlways (kw : AlwaysKw) : Stm → M
  | .mk none (.timing (.event e) b) => N.always (match kw with | .always => .NONE | .comb => .COMB | .ff => .FF | .latch => .LATCH)
      (some (evEventCtl A e)) (evStmN A B b)
  | s => N.always (match kw with | .always => .NONE | .comb => .COMB | .ff => .FF | .latch => .LATCH) none (evStm A B s)

def evElabArgs : List Arg → List V
  | [] => []
  | l => evArgs A none l

def evElab (t : ElabTask) : S :=
  B.expr (A.call (A.kw t.name) ((t.num.map fun n => A.lit (.integral (.unsigned n))).toList ++ evElabArgs A t.args))

def evGenStep : GenIter → V
  | .assign i o e => A.bin (AssignOp.sym o) (A.ident i) (evExp A e)
  | .incDec pre inc i => A.un (incDecSym pre inc) (A.ident i)

mutual
/-- The meaning of an item is a list: a declaration of several names stands for several items. -/
def evGenItem : GenItem → List M
  | .ignored _ => [N.other "item"]
  | .gate g => evGate A N g
  | .inst m => evInst A N m
  | .localparam d => (evParamDecl A B d).map N.stm
  | .param d => (evParamDecl A B d).map N.stm
  | .semi => [N.stm B.nop]
  | .net d => (evNetDecl A B d).map N.stm
  | .data d => (evDataDecl A B d).map N.stm
  | .tf d => [evTf A B N d]
  | .genvar l => l.map fun i => N.stm (B.decl {} (A.ident i) (A.kw (c! "genvar")) none)
  | .assign l => l.map fun a => N.assign (evLVal A a.1) (evExp A a.2)
  | .initial s => [N.initial (evStmN A B s)]
  | .always kw s => [evAlways A B N kw s]
  | .loop i c st b => [N.for_ i.genvar (A.ident i.name) (evExp A i.value) (evExp A c) (evGenStep A st) (N.block none (evGItem b))]
  | .if_ c t => [N.if_ (evExp A c) (N.block none (evGItem t)) none]
  | .ifElse c t f => [N.if_ (evExp A c) (N.block none (evGItem t)) (some (N.block none (evGItem f)))]
  | .case sel items => [N.case (evExp A sel) (evGCases items) (evGDefault items)]
  | .elab t => [N.stm (evElab A B t)]
def evGItem : GItem → List M
  | .item i => evGenItem i
  | .externTf => [N.other "extern"]
  | .rand => [N.other "rand"]
  | .region l => evGItems l
  | .block pre label l _ => [N.block ((pre.or label).map A.ident) (evGItems l)]
def evGItems : List GItem → List M
  | [] => []
  | g :: l => evGItem g ++ evGItems l
def evGCases : List CaseGItem → List (V × M)
  | [] => []
  | .dflt _ :: l => evGCases l
  | .exprs es g :: l => es.map (fun e => (evExp A e, N.block none (evGItem g))) ++ evGCases l
def evGDefault : List CaseGItem → Option M
  | [] => none
  | .dflt g :: _ => some (N.block none (evGItem g))
  | .exprs _ _ :: l => evGDefault l
end

/-! ### Modules -/

def evGeneric (const : Bool) (t : V) (p : ParamAssign) : S :=
  B.decl ⟨const, false, false⟩ (A.ident p.name) (evDims A t p.dims) (p.value.map (evPExpr A))

def evGenericDecl (const : Bool) : ParamDecl → List S
  | .type _ => [B.other "type parameter"]
  | .val t l => l.map (evGeneric A B const (evType A B t))

/-- The parameters in the header of a module; `loc`: the last keyword was `localparam`. -/
def evPortParams (loc : Bool) : List PortParam → List S
  | [] => []
  | .type _ :: l => B.other "type parameter" :: evPortParams loc l
  | .param d :: l => evGenericDecl A B false d ++ evPortParams false l
  | .localparam d :: l => evGenericDecl A B true d ++ evPortParams true l
  | .typed t ps :: l => ps.map (evGeneric A B loc (evDType A t)) ++ evPortParams loc l

def evHdrParams : Option ParamPorts → List S
  | none => []
  | some (.assigns l rest) => l.map (evGeneric A B false B.auto) ++ evPortParams A B false rest
  | some (.decls l) => evPortParams A B false l

/-- The type of a port, and whether it is a variable. -/
def evNetOrVar : NetOrVar → V × Bool
  | .interconnect _ => (A.kw (c! "interconnect"), false)
  | .var t => (evTypeI A B (c! "wire") t, true)
  | .net kw t => (evTypeI A B kw t, false)
  | .type t => (evTypeI A B (c! "wire") (some t), false)

/-- Ports in ANSI style: a port without direction has that of the port before, a port without anything in front of its name is declared
like the port before. -/
def evAnsiPorts (dir : Dir) (t : V) (var : Bool) : List AnsiPort → List (Port V)
  | [] => []
  | .expl _ n e :: l => ⟨dir, {}, A.ident n, B.auto, e.map (evExp A)⟩ :: evAnsiPorts dir t var l
  | .decl h n dims v :: l =>
    let (dir, t, var) := match h with
      | .none => (dir, t, var)
      | .dir d none => (dirOf d, A.kw (c! "wire"), false)
      | .dir d (some t) => (dirOf d, evNetOrVar A B t)
      | .type t => (dir, evNetOrVar A B t)
      | .iface i m => (dir, dot A (i.map A.ident) (argVal A (m.map A.ident)), false)
    ⟨dir, ⟨false, false, var⟩, A.ident n, evVDims A t dims, v.map (evExp A)⟩ :: evAnsiPorts dir t var l

/-- The name written by an identifier: an escaped identifier has a backslash in front. -/
def identName (i : Ident) : Str := if i.esc then i.text.drop 1 else i.text

/-- The type in a declaration of ports in the body, and whether it is a variable. -/
def evDeclType : NonansiDecl → V × Bool
  | .inout none _ => (B.auto, false)
  | .inout (some (.interconnect _)) _ => (A.kw (c! "interconnect"), false)
  | .inout (some (.net kw t)) _ => (evTypeI A B kw t, false)
  | .inout (some (.type t)) _ => (evTypeI A B (c! "wire") (some t), false)
  | .input none _ => (B.auto, false)
  | .input (some t) _ => evNetOrVar A B t
  | .output none _ => (B.auto, false)
  | .output (some t) _ => evNetOrVar A B t
  | .iface i m _ => (dot A (some (A.ident i)) (argVal A (m.map A.ident)), false)
  | .ref none _ => (B.auto, false)
  | .ref (some (.var t)) _ => (evTypeI A B (c! "wire") t, true)
  | .ref (some (.type t)) _ => (evDType A t, false)

/-- The ports declared by one declaration in the body. -/
def evNonansiDecl (d : NonansiDecl) : List (Ident × Port V) :=
  (names d).map fun v => (v.name, ⟨declDir d, ⟨false, false, (evDeclType A B d).2⟩, A.ident v.name,
    evVDims A (evDeclType A B d).1 v.dims, v.value.map (evExp A)⟩)

/-- The ports declared in the body. -/
def evBodyPorts : List ModItem → List (Ident × Port V)
  | [] => []
  | .port d :: l => evNonansiDecl A B d ++ evBodyPorts l
  | _ :: l => evBodyPorts l

/-- A port `a` of the list in the header of a module. -/
def plainPort (i : Ident) : Option NonansiPort := some (.expr (.one ⟨i, none, []⟩))

/-- A port of the list in the header: what the body declares for its name. -/
def evNonansiPort (decls : List (Ident × Port V)) : Option NonansiPort → Port V
  | some (.expr (.one ⟨i, none, []⟩)) =>
    match decls.find? fun x => identName x.1 = identName i with
    | some x => x.2
    | none => ⟨.UNKNOWN, {}, A.ident i, B.auto, none⟩
  | _ => ⟨.UNKNOWN, {}, A.other "port" [], B.auto, none⟩

/-- ANSI style: without direction the first port is `inout`. Otherwise the ports are those of the list in the header, as declared in the
body. -/
def evHdrPorts (items : List ModItem) : HdrPorts → List (Port V)
  | .none => []
  | .list (.ansi l) => evAnsiPorts A B .INOUT (A.kw (c! "wire")) false l
  | .list (.nonansi l) => l.map (evNonansiPort A B (evBodyPorts A B items))
  | .star => []

/-- The parameters declared in the body of a module; with a parameter list in the header they are local and no parameters. -/
def evBodyParams (hdr : Bool) : List ModItem → List S
  | [] => []
  | .item (.param d) :: l => (if hdr then [] else evGenericDecl A B false d) ++ evBodyParams hdr l
  | _ :: l => evBodyParams hdr l

mutual
def evMod : Mod → M
  | .mk true _ _ _ => N.other "extern module"
  | .mk false h ports items => N.module_ (A.ident h.name) (evHdrParams A B h.params ++ evBodyParams A B h.params.isSome items)
      (evHdrPorts A B items ports) (evModItems h.params.isSome items)
def evModItems (hdr : Bool) : List ModItem → List M
  | [] => []
  | .region l' :: l => evGItems A B N l' ++ evModItems hdr l
  | .item (.param d) :: l => (if hdr then (evGenericDecl A B true d).map N.stm else []) ++ evModItems hdr l
  | .item i :: l => evGenItem A B N i ++ evModItems hdr l
  | .module_ m :: l => evMod m :: evModItems hdr l
  | .port _ :: l => evModItems hdr l
  | .other :: l => N.other "item" :: evModItems hdr l
end

/-- The names declared in the body of a module. -/
def modItemNames : ModItem → List Ident
  | .region l => gItemsNames l
  | .item i => genItemNames i
  | _ => []

def ansiPortName : AnsiPort → Ident
  | .decl _ n _ _ => n
  | .expl _ n _ => n

def nonansiPortName : Option NonansiPort → List Ident
  | some (.expr (.one d)) => [d.id]
  | some (.named i _) => [i]
  | _ => []

def hdrPortNames : HdrPorts → List Ident
  | .list (.ansi l) => l.map ansiPortName
  | .list (.nonansi l) => l.flatMap nonansiPortName
  | _ => []

/-- The names of the ports declared in the body. -/
def bodyPortNames : List ModItem → List Ident
  | [] => []
  | .port d :: l => (names d).map (·.name) ++ bodyPortNames l
  | _ :: l => bodyPortNames l

/-! ## Meaning of the AST -/

variable (leaf : Expr → V)

def astConn : Expr → Option (Conn V)
  | .op _ .MAP_ASSOCIATION [.symb _ .ALL, .symb _ .NULL] => some .all
  | .op _ .MAP_ASSOCIATION [n, .symb _ .NULL] => (astEval A leaf n).map fun n => .named n none
  | .op _ .MAP_ASSOCIATION [n, v] => do
    let n ← astEval A leaf n
    let v ← astEval A leaf v
    return .named n (some v)
  | .symb _ .NULL => some (.pos none)
  | e => (astEval A leaf e).map fun v => .pos (some v)

def astConns : List Expr → Option (List (Conn V))
  | [] => some []
  | e :: l => do
    let e ← astConn A leaf e
    let l ← astConns l
    return e :: l

/-- The keywords of gates. -/
def gateOf (s : Str) : Option NGate :=
  if s = c! "and" then some .and else if s = c! "nand" then some .nand else if s = c! "or" then some .or
  else if s = c! "nor" then some .nor else if s = c! "xor" then some .xor else if s = c! "xnor" then some .xnor else none

/-- The name of a gate; a blank is no name. -/
def astGateName : Expr → Option (Option V)
  | .id _ [' '] => some none
  | e => (astEval A leaf e).map some

/-- An instance of a gate or of a module. -/
def astInst (n m : Expr) (gm pm : List Expr) : Option M :=
  match m with
  | .id _ s =>
    match gateOf s with
    | some g =>
      match gm, pm with
      | [], o :: l => do
        let n ← astGateName A leaf n
        let o ← astEval A leaf o
        let l ← astEvals A leaf l
        return N.gate g n o l
      | _, _ => none
    | none => do
      let n ← astEval A leaf n
      let gm ← astEvals A leaf gm
      let pm ← astConns A leaf pm
      return N.inst n (leaf (.id none s)) gm pm
  | _ => none

def astPort (d : IdDef) : Option (Port V) := do
  let t ← astType A B leaf d.type
  let v ← astOpt A leaf d.value
  return ⟨d.dir, ⟨d.const, d.static, d.latched⟩, leaf (.id none d.name), t, v⟩

def astPorts : List IdDef → Option (List (Port V))
  | [] => some []
  | d :: l => do
    let d ← astPort A B leaf d
    let l ← astPorts l
    return d :: l

def astProcess (t : Trigger) (sens : Option (List Expr)) (b : Obj) : Option M :=
  match sens with
  | some evs => do
    let evs ← astEvs A leaf evs
    let s ← astStm A B leaf b
    return N.always t (some evs) s
  | none =>
    match t with
    | .NONE =>
      match astInitial A B leaf (.process {} .NONE none b) with
      | some s => some (N.initial s)
      | none => (astStm A B leaf b).map fun s => N.always .NONE none (B.thread s)
    | t => (astStm A B leaf b).map (N.always t none)

/-- The variable of a generate loop: declared by the loop?, name, start. -/
def astGenInit : Obj → Option (Bool × V × V)
  | .id ⟨n, .symb _ .T_AUTO, v, true, false, false, false, false, .INTERNAL⟩ =>
    (astEval A leaf v).map fun v => (true, leaf (.id none n), v)
  | .assign ⟨[], false⟩ d v .null none true => do
    let d ← astEval A leaf d
    let v ← astEval A leaf v
    return (false, d, v)
  | _ => none

mutual
/-- The meaning of an object of a module; the flag `in_preproc` is not looked at. -/
def astItem : Obj → Option M
  | .id d => (astDecl A B leaf d).map N.stm
  | .nop ⟨[], _⟩ => some (N.stm B.nop)
  | .expr ⟨[], _⟩ e => (astEval A leaf e).map fun v => N.stm (B.expr v)
  | .inst n m gm pm => astInst A N leaf n m gm pm
  | .assign ⟨[], _⟩ d s .null none false => do
    let d ← astEval A leaf d
    let s ← astEval A leaf s
    return N.assign d s
  | .process ⟨[], _⟩ t sens b => astProcess A B N leaf t sens b
  | .fn h body => do
    let ret ← astType A B leaf h.ret
    let ps ← astPorts A B leaf h.params
    let body ← astStms A B leaf body
    return N.fn h.static h.task (leaf (.id none h.name)) ret ps body
  | .for_ ⟨[], _⟩ (.block ⟨[], false⟩ .SEQ [i]) c (.expr ⟨[], false⟩ st) b => do
    let i ← astGenInit A leaf i
    let c ← astEval A leaf c
    let st ← astEval A leaf st
    let b ← astItem b
    return N.for_ i.1 i.2.1 i.2.2 c st b
  | .if_ ⟨[], _⟩ c t el f => do
    let c ← astEval A leaf c
    let t ← astItem t
    let f ← optStm f (astItem f)
    let f ← astGElifs el f
    return N.if_ c t f
  | .case ⟨[], _⟩ .NONE .CASE sel cs d => do
    let sel ← astEval A leaf sel
    let cs ← astGBranches cs
    let d ← optStm d (astItem d)
    return N.case sel cs d
  | .block ⟨ls, _⟩ .SEQ l => (astItems l).map (N.block (ls.head?.map fun s => leaf (.id none s)))
  | .modDef [] (.id _ s) (.modDec s' gs ps []) l =>
    if s = s' then do
      let gs ← astStms A B leaf (gs.map .id)
      let ps ← astPorts A B leaf ps
      let l ← astItems l
      return N.module_ (leaf (.id none s)) gs ps l
    else none
  | _ => none
def astItems : List Obj → Option (List M)
  | [] => some []
  | o :: l => do
    let o ← astItem o
    let l ← astItems l
    return o :: l
/-- The branches of a `case`. -/
def astGBranches : List Branch → Option (List (V × M))
  | [] => some []
  | .mk e o :: l => do
    let e ← astEval A leaf e
    let o ← astItem o
    let l ← astGBranches l
    return (e, o) :: l
/-- The `elsif` branches in front of the `else` branch `f`. -/
def astGElifs : List Branch → Option M → Option (Option M)
  | [], f => some f
  | .mk e o :: l, f => do
    let e ← astEval A leaf e
    let o ← astItem o
    let f ← astGElifs l f
    return some (N.if_ e o f)
end

end Verif.Spec.Sv
