import Verif.Sv.Stm
/-!
# Model of the SystemVerilog visitors for instances, gates, functions, generate constructs, modules and source files

src/svConvertor/{moduleInstanceParser,gateParser,programParser,generateParser,moduleParser,source_textParser}.cpp.
Doc comments, positions and attributes are left out, but for `withAttrs` (see there). `reinterpret_cast` between vectors of
`unique_ptr`s to different classes is taken as a plain reference to the vector, which is what the compilers in use make of it.
-/
namespace Verif.Sv
open Verif

/-! ## Parse trees -/

/-- Rule `ordered_port_connection` or `named_port_connection`; `name`: `DOT identifier` alone. -/
inductive NamedConn
  | star
  | name (i : Ident)
  | empty (i : Ident)
  | val (i : Ident) (e : Exp)

/-- Rule `list_of_port_connections`. -/
inductive Conns
  | ordered (l : List (Option Exp))
  | named (l : List NamedConn)

/-- Rule `hierarchical_instance`. -/
structure HierInst where
  name : Ident
  dims : List ARange
  conns : Conns

/-- Rule `module_or_interface_or_program_or_udp_instantiation`. -/
structure ModInst where
  module_ : Ident
  params : PVA
  insts : List HierInst

/-- Rule `n_input_gatetype`. -/
inductive NGate
  | and | nand | or | nor | xor | xnor
deriving DecidableEq, Repr

/-- Rule `n_output_gate_instance`. -/
structure NOutInst where
  name : Option (Ident × List ARange)
  outs : List LVal
  inp : Exp

/-- Rule `n_input_gate_instance`. -/
structure NInInst where
  name : Option (Ident × List ARange)
  out : LVal
  ins : List Exp

/-- Rule `gate_instantiation`; `nOut neg`: `buf` or `not`. Strengths and delays are left out (the visitor prints a message). -/
inductive Gate
  | nOut (neg : Bool) (l : List NOutInst)
  | nIn (g : NGate) (l : List NInInst)
  | other

/-- Rule `tf_item_declaration`. -/
inductive TfItem
  | block (d : BlockDecl)
  | port (d : TfPortDecl)

/-- The alternatives of the rule `task_and_function_declaration_common`. -/
inductive TfHead
  | items (l : List TfItem)
  | ports (l : List TfPort) (decls : List BlockDecl)

/-- Rule `task_and_function_declaration_common`. -/
structure TfDecl where
  prefix_ : Option Ident
  name : Ident
  head : TfHead
  body : List StmN

/-- Rule `function_data_type_or_implicit` or its absence. -/
inductive FnRet
  | none
  | void
  | type (t : DType)
  | impl (t : ImplType)

/-- Rules `task_declaration`, `function_declaration`. -/
inductive TfDef
  | task (life : Option Lifetime) (d : TfDecl)
  | function (life : Option Lifetime) (ret : FnRet) (d : TfDecl)

/-- Rule `genvar_initialization`. -/
structure GenInit where
  genvar : Bool
  name : Ident
  value : Exp

/-- Rule `genvar_iteration`. -/
inductive GenIter
  | assign (i : Ident) (o : AssignOp) (e : Exp)
  | incDec (pre inc : Bool) (i : Ident)

/-- The items of modules and generate regions that are only reported as not implemented. -/
inductive IgnoredItem
  | checker | covergroup | property | sequence | let_ | clocking | assertion | final | defaultClocking | dpi | externConstraint | class_
  | interfaceClass | constructor | bind | netAlias | paramOverride | udp
deriving DecidableEq, Repr

mutual
/-- Rule `module_or_generate_item`, with the rules `module_or_generate_or_interface_item` and
`module_or_generate_or_interface_or_checker_item`. -/
inductive GenItem
  | ignored (i : IgnoredItem)
  | gate (g : Gate)
  | inst (m : ModInst)
  | localparam (d : ParamDecl)
  | param (d : ParamDecl)
  | semi
  | net (d : NetDecl)
  | data (d : DataDecl)
  | tf (d : TfDef)
  | genvar (l : List Ident)
  | assign (l : List (LVal × Exp))
  | initial (s : StmN)
  | always (kw : AlwaysKw) (s : Stm)
  | loop (init : GenInit) (cond : Exp) (iter : GenIter) (b : GItem)
  | if_ (c : Exp) (t : GItem)
  | ifElse (c : Exp) (t f : GItem)
  | case (sel : Exp) (items : List CaseGItem)
  | elab (t : ElabTask)
/-- Rule `generate_item`. -/
inductive GItem
  | item (i : GenItem)
  | externTf
  | rand
  | region (l : List GItem)
  | block (pre label : Option Ident) (l : List GItem) (endLabel : Option Ident)
/-- Rule `case_generate_item`. -/
inductive CaseGItem
  | dflt (g : GItem)
  | exprs (l : List Exp) (g : GItem)
end

/-- Rule `module_header_common`; lifetime and imports are left out (the visitor prints a message). -/
structure ModHeader where
  name : Ident
  params : Option ParamPorts

/-- The ports in the rule `module_declaration`; `star`: `(.*)`. -/
inductive HdrPorts
  | none
  | list (l : PortList)
  | star

mutual
/-- Rule `module_declaration`. -/
inductive Mod
  | mk (ext : Bool) (h : ModHeader) (ports : HdrPorts) (items : List ModItem)
/-- Rule `module_item`; `other`: `specify_block`, `program_declaration`, `interface_declaration`, `timeunits_declaration`,
`specparam_declaration`. -/
inductive ModItem
  | region (l : List GItem)
  | item (i : GenItem)
  | module_ (m : Mod)
  | port (d : NonansiDecl)
  | other
end

/-- Rule `description`; `other`: everything but a module. -/
inductive Desc
  | module_ (m : Mod)
  | other

/-! ## Instances -/

/-- moduleInstanceParser.cpp 137-168. -/
def visitNamedConn : NamedConn → Except Exc Expr
  | .star => .ok (.mkBin none (.symb none .ALL) .MAP_ASSOCIATION (.symb none .NULL))
  | .name i => do
    let i ← visitIdent i
    return .mkBin none i .MAP_ASSOCIATION (.symb none .NULL)
  | .empty i => do
    let i ← visitIdent i
    return .mkBin none i .MAP_ASSOCIATION (.symb none .NULL)
  | .val i e => do
    let i ← visitIdent i
    let e ← visitExp e
    return .mkBin none i .MAP_ASSOCIATION e

/-- moduleInstanceParser.cpp 137-168. -/
def visitNamedConns : List NamedConn → Except Exc (List Expr)
  | [] => .ok []
  | c :: l => do
    let c ← visitNamedConn c
    let l ← visitNamedConns l
    return c :: l

/-- moduleInstanceParser.cpp 120-135. -/
def visitOrderedConns : List (Option Exp) → Except Exc (List Expr)
  | [] => .ok []
  | none :: l => do
    let l ← visitOrderedConns l
    return .symb none .NULL :: l
  | some e :: l => do
    let e ← visitExp e
    let l ← visitOrderedConns l
    return e :: l

/-- moduleInstanceParser.cpp 110-171. -/
def visitConns : Conns → Except Exc (List Expr)
  | .ordered l => visitOrderedConns l
  | .named l => visitNamedConns l

/-- moduleInstanceParser.cpp 25-32, 49-86. -/
def visitParamMap : PVA → Except Exc (List Expr)
  | .none => .ok []
  | .ordered l => visitPExprs l
  | .named l => visitNamedPs l

/-- moduleInstanceParser.cpp 88-108. -/
def visitHierInst (mod : Str) (gm : List Expr) (h : HierInst) : Except Exc Obj := do
  let n ← visitIdent h.name
  let n ← visitUnpackedDims n h.dims
  let pm ← visitConns h.conns
  return .inst n (.id none mod) gm pm

/-- moduleInstanceParser.cpp 35-46 with `first != nullptr`: the map of the first instance is copied. -/
def visitHierInstsRest (mod : Str) (gm : List Expr) : List HierInst → Except Exc (List Obj)
  | [] => .ok []
  | h :: l => do
    let gm' ← cloneList gm
    let h ← visitHierInst mod gm' h
    let l ← visitHierInstsRest mod gm l
    return h :: l

/-- moduleInstanceParser.cpp 15-47: the module name is the text of the identifier. -/
def visitModInst (m : ModInst) : Except Exc (List Obj) := do
  let gm ← visitParamMap m.params
  match m.insts with
  | [] => return []
  | h :: l =>
    let h ← visitHierInst m.module_.text gm h
    let l ← visitHierInstsRest m.module_.text gm l
    return h :: l

/-! ## Gates -/

/-- gateParser.cpp 207-230. -/
def NGate.name : NGate → Str
  | .and => c! "and" | .nand => c! "nand" | .or => c! "or" | .nor => c! "nor" | .xor => c! "xor" | .xnor => c! "xnor"

/-- gateParser.cpp 87-112, 165-178: an instance of `buf` or `not`. The instance name is dropped. Several outputs are concatenated. -/
def visitNOutInst (neg : Bool) (i : NOutInst) : Except Exc Obj := do
  let outs ← visitLVals i.outs
  let e ← visitExp i.inp
  let o := reduceE .CONCAT .null outs
  mkAssign o (if neg then .mkUn none .NEG e else e) .null none false

/-- gateParser.cpp 165-178. -/
def visitNOutInsts (neg : Bool) : List NOutInst → Except Exc (List Obj)
  | [] => .ok []
  | i :: l => do
    let i ← visitNOutInst neg i
    let l ← visitNOutInsts neg l
    return i :: l

/-- gateParser.cpp 114-133, 192-237: an instance of an n-input gate. The dimensions of the name are dropped. -/
def visitNInInst (g : NGate) (i : NInInst) : Except Exc Obj := do
  let o ← visitLVal i.out
  let l ← visitExps i.ins
  let n ← (match i.name with
    | none => .ok (.id none (c! " "))
    | some n => visitIdent n.1)
  return .inst n (.id none g.name) [] (o :: l)

/-- gateParser.cpp 192-237. -/
def visitNInInsts (g : NGate) : List NInInst → Except Exc (List Obj)
  | [] => .ok []
  | i :: l => do
    let i ← visitNInInst g i
    let l ← visitNInInsts g l
    return i :: l

/-- gateParser.cpp 135-242. -/
def visitGate : Gate → Except Exc (List Obj)
  | .nOut neg l => visitNOutInsts neg l
  | .nIn g l => visitNInInsts g l
  | .other => .ok []

/-! ## Tasks and functions -/

/-- hdlModuleDec.cpp 10-16 and programParser.cpp 42-50: the first port with the name is changed. -/
def updPort (name : Str) (f : IdDef → IdDef) : List IdDef → Option (List IdDef)
  | [] => none
  | p :: l => if p.name = name then some (f p :: l) else
    match updPort name f l with
    | none => none
    | some l => some (p :: l)

/-- programParser.cpp 37-55: declarations with the name of a port move their type and value to the port. After `objs.erase(it)` the
loop goes on with `it`, which formally is no longer valid but refers to the next element. -/
def mergeTfObjs (ports : List IdDef) : List Obj → List Obj × List IdDef
  | [] => ([], ports)
  | o :: l =>
    match o.idDef? with
    | none => let r := mergeTfObjs ports l; (o :: r.1, r.2)
    | some d =>
      match updPort d.name (fun p => { p with type := d.type, value := d.value }) ports with
      | none => let r := mergeTfObjs ports l; (o :: r.1, r.2)
      | some ports => mergeTfObjs ports l

/-- programParser.cpp 23-60, 122-124. -/
def visitTfItems (ports : List IdDef) : List TfItem → Except Exc (List Obj × List IdDef)
  | [] => .ok ([], ports)
  | .block d :: l => do
    let os ← visitBlockDecl d
    let r := mergeTfObjs ports os
    let (os', ps) ← visitTfItems r.2 l
    return (r.1 ++ os', ps)
  | .port d :: l => do
    let ps ← visitTfPortDecl d
    visitTfItems (ports ++ ps) l

/-- programParser.cpp 117-129. -/
def visitTfHead : TfHead → Except Exc (List Obj × List IdDef)
  | .items l => visitTfItems [] l
  | .ports l ds => do
    let ps ← visitTfPorts l
    let os ← visitBlockDecls ds
    return (os, ps)

/-- programParser.cpp 85-140: a scope in front of the name is dropped. -/
def visitTfDecl (ret : Expr) (static task : Bool) (d : TfDecl) : Except Exc Obj := do
  let name ← identStr d.name
  let (os, ps) ← visitTfHead d.head
  let b ← visitStmNs d.body
  return .fn { name := name, ret := ret, params := ps, static := static, task := task, declOnly := false } (os ++ b)

/-- typeParser.cpp 487-504, with 455-466 (`visitData_type_or_void`). -/
def visitFnRet : FnRet → Except Exc Expr
  | .none => .ok (.symb none .T_AUTO)
  | .void => .ok (.id none (c! "void"))
  | .type t => visitDType t
  | .impl t => visitImplType .null (some t)

/-- programParser.cpp 142-173. -/
def visitTfDef : TfDef → Except Exc Obj
  | .task life d => visitTfDecl (.id none (c! "void")) (visitLifetime life) true d
  | .function life ret d => do
    let ret ← visitFnRet ret
    visitTfDecl ret (visitLifetime life) false d

/-! ## Generate constructs -/

/-- generateParser.cpp 424-438. -/
def visitGenvars : List Ident → Except Exc (List Obj)
  | [] => .ok []
  | i :: l => do
    let name ← identStr i
    let l ← visitGenvars l
    return .id { name := name, type := .id none (c! "genvar"), value := .null } :: l

/-- generateParser.cpp 439-456. -/
def visitGenInit (g : GenInit) : Except Exc Obj := do
  let v ← visitExp g.value
  if g.genvar then do
    let name ← identStr g.name
    return .id { name := name, type := .symb none .T_AUTO, value := v, latched := true }
  else do
    let d ← visitIdent g.name
    mkAssign d v .null none true

/-- generateParser.cpp 458-483. -/
def visitGenIter : GenIter → Except Exc Obj
  | .assign i o e => do
    let i ← visitIdent i
    let e ← visitExp e
    return .expr {} (.mkBin none i o.toOp e)
  | .incDec pre inc i => do
    let i ← visitIdent i
    return .expr {} (.mkUn none (incDecOp pre inc) i)

/-- generateParser.cpp 512-517, 622-628: a block of one statement is replaced by the statement. -/
def popBlock : List Obj → Obj
  | [o] => o
  | l => .block {} .SEQ l

/-- generateParser.cpp 34-39. -/
def markPreproc (o : Obj) : Obj := o.mapInfo fun i => { i with preproc := true }

/-- generateParser.cpp 578-588: `assert(_gi.size() == 1)`, then `_gi.at(0)`. -/
def oneObj : List Obj → Except Exc Obj
  | [o] => .ok o
  | _ => .error .ub

/-- generateParser.cpp 611. -/
def multiDefaultGenMsg : Str := c! "VerGenerateParser.visitCase_generate_construct case with multiple default"

/-- generateParser.cpp 541-544: all identifiers of the block in order. -/
def genLabels : List (Option Ident) → Except Exc (List Str)
  | [] => .ok []
  | none :: l => genLabels l
  | some i :: l => do
    let s ← identStr i
    let l ← genLabels l
    return s :: l

mutual
/-- generateParser.cpp 381-423, with 184-379, 44-182; the second component: parameters of the module. -/
def visitGenItem : GenItem → Except Exc (List Obj × List IdDef)
  | .ignored _ => .ok ([], [])
  | .gate g => do
    let l ← visitGate g
    return (l, [])
  | .inst m => do
    let l ← visitModInst m
    return (l, [])
  | .localparam d => do
    let l ← visitLocalparam d
    return (l.map .id, [])
  | .param d => do
    let l ← visitParamDecl d
    return ([], l)
  | .semi => .ok ([.nop {}], [])
  | .net d => do
    let l ← visitNetDecl d
    return (l.map .id, [])
  | .data d => do
    let l ← visitDataDecl d
    return (l, [])
  | .tf d => do
    let d ← visitTfDef d
    return ([d], [])
  | .genvar l => do
    let l ← visitGenvars l
    return (l, [])
  | .assign l => do
    let l ← visitContAssign l
    return (l, [])
  | .initial s => do
    let o ← visitInitial s
    return ([o], [])
  | .always kw s => do
    let o ← visitAlways kw s
    return ([o], [])
  | .loop init cond iter b => do
    let i ← visitGenInit init
    let c ← visitExp cond
    let s ← visitGenIter iter
    let b ← visitGItem b
    return ([.for_ {} (.block {} .SEQ [i]) c s (popBlock b)], [])
  | .if_ c t => do
    let c ← visitExp c
    let t ← visitGItem t
    let o ← collapseElifs {} c (popBlock t) .null
    return ([o], [])
  | .ifElse c t f => do
    let c ← visitExp c
    let t ← visitGItem t
    let f ← visitGItem f
    let o ← collapseElifs {} c (popBlock t) (popBlock f)
    return ([o], [])
  | .case sel items => do
    let sel ← visitExp sel
    let bs ← visitCaseGItems items
    let (bs, d) ← splitCases multiDefaultGenMsg .null bs
    return ([.case {} .NONE .CASE sel bs d], [])
  | .elab t => do
    let o ← visitElabTask t
    return ([o], [])
/-- generateParser.cpp 660-711, with 27-42 (regions) and 524-546 (blocks): parameters are dropped. -/
def visitGItem : GItem → Except Exc (List Obj)
  | .item i => do
    let (l, _) ← visitGenItem i
    return l
  | .externTf => .ok []
  | .rand => .ok []
  | .region l => do
    let l ← visitGItems l
    return l.map markPreproc
  | .block pre label l endLabel => do
    let l ← visitGItems l
    let labels ← genLabels [pre, label, endLabel]
    return [.block { labels := labels } .SEQ l]
/-- generateParser.cpp 32-41, 536-538. -/
def visitGItems : List GItem → Except Exc (List Obj)
  | [] => .ok []
  | g :: l => do
    let g ← visitGItem g
    let l ← visitGItems l
    return g ++ l
/-- generateParser.cpp 564-592; as for `visitCaseExprs`, the result of the visits of the item is the same for all expressions. -/
def visitCaseGItem : CaseGItem → Except Exc (List Branch)
  | .dflt g => do
    let l ← visitGItem g
    let o ← oneObj l
    return [.mk .null o]
  | .exprs es g => do
    let l ← visitGItem g
    let o ← oneObj l
    visitCaseExprs o es
/-- generateParser.cpp 603-616. -/
def visitCaseGItems : List CaseGItem → Except Exc (List Branch)
  | [] => .ok []
  | i :: l => do
    let i ← visitCaseGItem i
    let l ← visitCaseGItems l
    return i ++ l
end

/-! ## Modules -/

/-- The fields of `HdlModuleDec` and `HdlModuleDef` that the visitors of a module fill. -/
structure ModState where
  generics : List IdDef
  ports : List IdDef
  objs : List Obj

/-- moduleParser.cpp 279-284. -/
def addPort (d : IdDef) : List IdDef → List IdDef
  | [] => [d]
  | [p] => if p.name = c! ".*" then [d, p] else [p, d]
  | p :: l => p :: addPort d l

/-- moduleParser.cpp 259-268; the assertion of line 262 is checked by `applyPortDecl`. -/
def updPortDecl (d p : IdDef) : IdDef :=
  { p with
    dir := d.dir
    type := d.type
    value := (match d.value with | .null => p.value | v => v)
    latched := p.latched || d.latched
    const := p.const || d.const }

/-- The null pointer test. -/
def isNullE : Expr → Bool
  | .null => true
  | _ => false

/-- `getPortByName` (hdlModuleDec.cpp 10-16). -/
def getPort (name : Str) (l : List IdDef) : Option IdDef := l.find? fun p => p.name = name

/-- moduleParser.cpp 256-286: one declared name. -/
def applyPortDecl (ports : List IdDef) (d : IdDef) : Except Exc (List IdDef) :=
  match getPort d.name ports with
  | none => .ok (addPort d ports)
  | some p =>
    if !isNullE d.value && !isNullE p.value then .error .ub
    else match updPort d.name (updPortDecl d) ports with
      | some l => .ok l
      | none => .ok ports

/-- moduleParser.cpp 256-286. -/
def applyPortDecls (ports : List IdDef) : List IdDef → Except Exc (List IdDef)
  | [] => .ok ports
  | d :: l => do
    let ports ← applyPortDecl ports d
    applyPortDecls ports l

/-- moduleParser.cpp 125-134. -/
def updPortVar (v p : IdDef) : IdDef :=
  { p with
    type := v.type
    value := (match v.value with | .null => p.value | x => x)
    const := p.const || v.const
    latched := p.latched || v.latched
    static := p.static || v.static }

/-- moduleParser.cpp 116-138: objects with the name of a port are removed and change the port. -/
def consumePortVars (ports : List IdDef) : List Obj → List Obj × List IdDef
  | [] => ([], ports)
  | o :: l =>
    match o.idDef? with
    | none => let r := consumePortVars ports l; (o :: r.1, r.2)
    | some v =>
      match updPort v.name (updPortVar v) ports with
      | none => let r := consumePortVars ports l; (o :: r.1, r.2)
      | some ports => consumePortVars ports l

/-- moduleParser.cpp 83-92, 139-143, 146-148. -/
def defaultType (d : IdDef) : IdDef :=
  { d with type := (match d.type with | .null => .symb none .T_AUTO | t => t) }

/-- moduleParser.cpp 144-154. -/
def finishPorts (prev : Dir) : List IdDef → List IdDef
  | [] => []
  | p :: l =>
    if p.dir = .UNKNOWN then defaultType { p with dir := prev } :: finishPorts prev l
    else defaultType p :: finishPorts p.dir l

/-- moduleParser.cpp 68-81. -/
def visitHdrPorts : HdrPorts → Except Exc (List IdDef)
  | .none => .ok []
  | .list l => visitPortList l
  | .star => .ok [{ name := c! ".*", type := .symb none .ALL, value := .null }]

/-- moduleParser.cpp 46-50. -/
def visitHdrParams : Option ParamPorts → Except Exc (List IdDef)
  | none => .ok []
  | some p => visitParamPorts p

mutual
/-- moduleParser.cpp 53-156, with 28-51. -/
def visitMod : Mod → Except Exc Obj
  | .mk ext h ports items => do
    let gs ← visitHdrParams h.params
    let ps ← visitHdrPorts ports
    if ext then
      return .modDec h.name.text (gs.map defaultType) (ps.map defaultType) []
    else do
      let st ← visitModItems { generics := gs, ports := ps, objs := [] } items
      let r := consumePortVars st.ports st.objs
      return .modDef [] (.id none h.name.text)
        (.modDec h.name.text (st.generics.map defaultType) (finishPorts .INOUT r.2) []) r.1
/-- moduleParser.cpp 105-106. -/
def visitModItems (st : ModState) : List ModItem → Except Exc ModState
  | [] => .ok st
  | i :: l => do
    let st ← visitModItem st i
    visitModItems st l
/-- moduleParser.cpp 183-287, with 157-181. -/
def visitModItem (st : ModState) : ModItem → Except Exc ModState
  | .region l => do
    let l ← visitGItem (.region l)
    return { st with objs := st.objs ++ l }
  | .item i => do
    let (l, ps) ← visitGenItem i
    return { st with objs := st.objs ++ l, generics := st.generics ++ ps }
  | .module_ m => do
    let o ← visitMod m
    return { st with objs := st.objs ++ [o] }
  | .port d => do
    let ds ← visitNonansiDecl d
    let ps ← applyPortDecls st.ports ds
    return { st with ports := ps }
  | .other => .ok st
end

/-- source_textParser.cpp 17-118: the objects added to the context. -/
def visitSource : List Desc → Except Exc (List Obj)
  | [] => .ok []
  | .module_ m :: l => do
    let o ← visitMod m
    let l ← visitSource l
    return o :: l
  | .other :: l => visitSource l

/-! ## Attributes in front of a list of objects -/

/-- attributeParser.cpp 24-37: the value of an attribute. -/
def visitAttr (a : Ident × Option Exp) : Except Exc (Str × Expr) := do
  let n ← identStr a.1
  let v ← visitOptExp a.2
  return (n, v)

/-- attributeParser.cpp 10-22. -/
def visitAttrs : List (Ident × Option Exp) → Except Exc (List (Str × Expr))
  | [] => .ok []
  | a :: l => do
    let a ← visitAttr a
    let l ← visitAttrs l
    return a :: l

/-- include/hdlConvertor/svConvertor/attributeParser.h 25-48 (`VerVisitAttributeForVectorResult`): the attributes in front of a module
item, generate item, block item or port declaration are visited in the destructor of a local object, once for each object that was
added. A destructor is `noexcept`, so an exception calls `std::terminate` (undefined behaviour here). If the visit of the item itself
throws, that exception is modelled (with objects already added and failing attributes the real program terminates here, too). -/
def withAttrs (attrs : List (Ident × Option Exp)) (r : Except Exc (List Obj)) : Except Exc (List Obj) :=
  match r with
  | .error e => .error e
  | .ok [] => .ok []
  | .ok l => match visitAttrs attrs with
    | .ok _ => .ok l
    | .error _ => .error .ub

end Verif.Sv
