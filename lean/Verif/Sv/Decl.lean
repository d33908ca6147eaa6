import Verif.Sv.Expr
import Verif.HdlObj
/-!
# Model of the SystemVerilog declaration visitors: ports, parameters, nets, variables

src/svConvertor/{portParser,paramDefParser,declrParser}.cpp, the rest of typeParser.cpp, and the net declarations of moduleParser.cpp.
Attributes, doc comments and positions are left out.

Some loops keep a raw pointer to the type of the first declared name and clone the object behind it for the following names, after
`applyVariable_dimension` may have changed that object in place. `afterDims` is the value of this object after the call.
-/
namespace Verif.Sv
open Verif

/-! ## Parse trees -/

/-- Rule `port_direction`. -/
inductive PortDir
  | input | output | inout | ref
deriving DecidableEq, Repr

/-- Rule `tf_port_direction`. -/
inductive TfDir
  | constRef
  | dir (d : PortDir)
deriving DecidableEq, Repr

/-- Rule `net_or_var_data_type`; `net kw`: the text of the rule `net_type`. -/
inductive NetOrVar
  | interconnect (t : Option ImplType)
  | var (t : Option DTypeOrImpl)
  | net (kw : Str) (t : Option DTypeOrImpl)
  | type (t : DTypeOrImpl)

/-- Rule `net_port_type`. -/
inductive NetPort
  | interconnect (t : Option ImplType)
  | net (kw : Str) (t : Option DTypeOrImpl)
  | type (t : DTypeOrImpl)

/-- Rule `var_data_type`. -/
inductive VarDType
  | var (t : Option DTypeOrImpl)
  | type (t : DType)

/-- The header of the rule `ansi_port_declaration`. `iface none m` is `KW_INTERFACE (DOT identifier)?`. -/
inductive AnsiHead
  | none
  | dir (d : PortDir) (t : Option NetOrVar)
  | type (t : NetOrVar)
  | iface (i : Option Ident) (m : Option Ident)

/-- Rule `ansi_port_declaration`; `expl` is the second alternative. -/
inductive AnsiPort
  | decl (h : AnsiHead) (name : Ident) (dims : List VDim) (value : Option Exp)
  | expl (d : Option PortDir) (name : Ident) (e : Option Exp)

/-- Rule `identifier_doted_index_at_end`. -/
structure DotIndex where
  id : Ident
  member : Option Ident
  index : List ARange

/-- Rule `nonansi_port__expr`. -/
inductive NonansiExpr
  | one (d : DotIndex)
  | brace (l : List DotIndex)

/-- Rule `nonansi_port`. -/
inductive NonansiPort
  | expr (e : NonansiExpr)
  | named (i : Ident) (e : Option NonansiExpr)

/-- Rule `list_of_port_declarations`: in `nonansi`, `none` is an empty position between commas. -/
inductive PortList
  | nonansi (l : List (Option NonansiPort))
  | ansi (l : List AnsiPort)

/-- Rules `list_of_variable_identifiers_item` (value absent) and `list_of_tf_variable_identifiers_item`. -/
structure VarId where
  name : Ident
  dims : List VDim
  value : Option Exp

/-- Rule `nonansi_port_declaration`. -/
inductive NonansiDecl
  | inout (t : Option NetPort) (l : List VarId)
  | input (t : Option NetOrVar) (l : List VarId)
  | output (t : Option NetOrVar) (l : List VarId)
  | iface (i : Ident) (m : Option Ident) (l : List VarId)
  | ref (t : Option VarDType) (l : List VarId)

/-- Rule `tf_port_item`. -/
structure TfPort where
  dir : Option TfDir
  var : Bool
  type : Option DTypeOrImpl
  name : Option Ident
  dims : List VDim
  value : Option Exp

/-- Rule `tf_port_declaration`. -/
structure TfPortDecl where
  dir : TfDir
  var : Bool
  type : Option DTypeOrImpl
  items : List VarId

/-- Rule `param_assignment`. -/
structure ParamAssign where
  name : Ident
  dims : List ARange
  value : Option PExpr

/-- Rule `type_assignment`. -/
structure TypeAssign where
  name : Ident
  type : Option DType

/-- Rules `parameter_declaration` and `local_parameter_declaration` after the keyword. -/
inductive ParamDecl
  | type (l : List TypeAssign)
  | val (t : Option DTypeOrImpl) (l : List ParamAssign)

/-- Rule `parameter_port_declaration`. -/
inductive PortParam
  | type (l : List TypeAssign)
  | param (d : ParamDecl)
  | localparam (d : ParamDecl)
  | typed (t : DType) (l : List ParamAssign)

/-- Rule `parameter_port_list`. -/
inductive ParamPorts
  | assigns (l : List ParamAssign) (rest : List PortParam)
  | decls (l : List PortParam)

/-- What follows `ASSIGN` in the rule `variable_decl_assignment`; `new` is `class_new` or `dynamic_array_new`. -/
inductive VarInit
  | none
  | expr (e : Exp)
  | new

/-- Rule `variable_decl_assignment`. -/
structure VarDecl where
  name : Ident
  dims : List VDim
  init : VarInit

/-- Rule `type_declaration`; `fwd`: with `enum`, `struct`, `union` or `class`; `bare`: only the identifier. -/
inductive TypeDecl
  | data (t : DType) (name : Ident) (dims : List VDim)
  | fwd (name : Ident)
  | scoped (i : Ident) (bits : List Exp) (member : Ident) (name : Ident)
  | bare (name : Ident)

/-- Rule `package_import_item`: `none` is `*`. -/
structure ImportItem where
  pkg : Ident
  item : Option Ident

/-- Rule `lifetime`. -/
inductive Lifetime
  | static | automatic
deriving DecidableEq, Repr

/-- Rule `data_declaration`. -/
inductive DataDecl
  | vars (const : Bool) (life : Option Lifetime) (t : Option DTypeOrImpl) (l : List VarDecl)
  | type (d : TypeDecl)
  | import_ (l : List ImportItem)
  | nettype

/-- Rule `net_decl_assignment`. -/
structure NetAssign where
  name : Ident
  dims : List ARange
  value : Option Exp

/-- Rule `net_declaration`; `extra`: with `drive_strength`, `charge_strength`, `vectored` or `scalared`; `user`: the alternative that
starts with an identifier. The delays are left out: the visitor only prints a message about them. -/
inductive NetDecl
  | interconnect
  | net (kw : Str) (extra : Bool) (t : Option DTypeOrImpl) (l : List NetAssign)
  | user (type : Ident) (l : List NetAssign)

/-! ## Types -/

/-- typeParser.cpp 414-445; the second component is `is_latched`. -/
def visitNetOrVar : Option NetOrVar → Except Exc (Expr × Bool)
  | none => .ok (.symb none .T_AUTO, false)
  | some (.interconnect t) => do
    let t ← visitImplType .null t
    return (t, false)
  | some (.var t) => do
    let t ← visitDTypeOrImpl .null t
    return (t, true)
  | some (.net kw t) => do
    let t ← visitDTypeOrImpl (.id none kw) t
    return (t, false)
  | some (.type t) => do
    let t ← visitDTypeOrImpl .null (some t)
    return (t, false)

/-- typeParser.cpp 390-413. -/
def visitNetPort : Option NetPort → Except Exc Expr
  | none => .ok (.symb none .T_AUTO)
  | some (.interconnect t) => visitImplType .null t
  | some (.net kw t) => visitDTypeOrImpl (.id none kw) t
  | some (.type t) => visitDTypeOrImpl .null (some t)

/-- typeParser.cpp 468-485. -/
def visitVarDType : Option VarDType → Except Exc Expr
  | none => .ok (.symb none .T_AUTO)
  | some (.var t) => visitDTypeOrImpl .null t
  | some (.type t) => visitDType t

/-- typeParser.cpp 447-453. -/
def visitLifetime : Option Lifetime → Bool
  | none => true
  | some .static => true
  | some .automatic => false

/-- An optional expression: the null pointer if absent. -/
def visitOptExp : Option Exp → Except Exc Expr
  | none => .ok .null
  | some e => visitExp e

/-- The object that `base_type_tmp` points to after `applyVariable_dimension(move(base_type), dims)` (typeParser.cpp 235-271): if the
object is a wire type without width, the first dimension is stored into it. -/
def afterDims (base : Expr) : List VDim → Except Exc Expr
  | [] => .ok base
  | d :: _ => if isOpenWire base then do
      let d ← visitVDim d
      return fillWidth d base
    else .ok base

/-! ## Ports -/

/-- portParser.cpp 443-459. -/
def PortDir.toDir : PortDir → Dir
  | .input => .IN | .output => .OUT | .inout => .INOUT | .ref => .LINKAGE

/-- portParser.cpp 461-474. -/
def TfDir.toDir : TfDir → Dir
  | .constRef => .LINKAGE
  | .dir d => d.toDir

/-- portParser.cpp 149, 152: the `port_direction` of an ANSI port. -/
def AnsiPort.dir? : AnsiPort → Option PortDir
  | .decl (.dir d _) _ _ _ => some d
  | .decl _ _ _ _ => none
  | .expl d _ _ => d

/-- portParser.cpp 164-171. -/
def visitIface (i m : Option Ident) : Except Exc Expr := do
  let t ← (match i with
    | none => .ok (.id none (c! "interface"))
    | some i => visitIdent i)
  match m with
  | none => return t
  | some m =>
    let m ← visitIdent m
    return appendExpr t .DOT m

/-- portParser.cpp 154-172: type and `is_latched` given by the header; the null pointer if there is no type. -/
def visitAnsiHead : AnsiHead → Except Exc (Expr × Bool)
  | .none => .ok (.null, false)
  | .dir _ none => .ok (.null, false)
  | .dir _ (some t) => visitNetOrVar (some t)
  | .type t => visitNetOrVar (some t)
  | .iface i m => do
    let t ← visitIface i m
    return (t, false)

/-- portParser.cpp 185-190: the type of a port whose header has none. -/
def ansiBase (t prevBase : Expr) : Except Exc Expr :=
  match t, prevBase with
  | .null, .null => .ok (.id none (c! "wire"))
  | .null, b => b.clone
  | t, _ => .ok t

/-- portParser.cpp 135-201 (`visitAnsi_port_declaration`). `prevDir`: direction of the previous port if there is one; `prevBase`: the
object behind `prev_var_base_t` (null if the pointer is null). The second component of the result is the object behind the returned
pointer. -/
def visitAnsiPort (prevDir : Option Dir) (prevBase : Expr) (p : AnsiPort) : Except Exc (IdDef × Expr) :=
  let d0 := match prevDir with | some d => d | none => .UNKNOWN
  let d := match p.dir? with | some d => d.toDir | none => d0
  let prevBase := match p.dir? with | some _ => .null | none => prevBase
  match p with
  | .expl _ name e => do
    let name ← identStr name
    let e ← visitOptExp e
    return ({ name := name, type := .symb none .T_AUTO, value := e, dir := d }, .null)
  | .decl h name dims value => do
    let name ← identStr name
    let (t, latched) ← visitAnsiHead h
    let base ← ansiBase t prevBase
    let t ← applyVDims base dims
    let base' ← afterDims base dims
    let v ← visitOptExp value
    return ({ name := name, type := t, value := v, latched := latched, dir := d }, base')

/-- portParser.cpp 120-131. -/
def visitAnsiPorts (prevDir : Option Dir) (prevBase : Expr) : List AnsiPort → Except Exc (List IdDef)
  | [] => .ok []
  | p :: l => do
    let (d, base) ← visitAnsiPort prevDir prevBase p
    let l ← visitAnsiPorts (some d.dir) base l
    return d :: l

/-- exprParser.cpp 107-122. -/
def visitDotIndexRanges (e : Expr) : List ARange → Except Exc Expr
  | [] => .ok e
  | r :: l => do
    let r ← visitARange r
    visitDotIndexRanges (appendExpr e .INDEX r) l

/-- exprParser.cpp 107-122. -/
def visitDotIndex (d : DotIndex) : Except Exc Expr := do
  let e ← visitIdent d.id
  let e ← (match d.member with
    | none => .ok e
    | some m => do
      let m ← visitIdent m
      return appendExpr e .DOT m)
  visitDotIndexRanges e d.index

/-- portParser.cpp 95-98. -/
def visitDotIndexes : List DotIndex → Except Exc (List Expr)
  | [] => .ok []
  | d :: l => do
    let d ← visitDotIndex d
    let l ← visitDotIndexes l
    return d :: l

/-- portParser.cpp 86-105. -/
def visitNonansiExpr : NonansiExpr → Except Exc Expr
  | .one d => visitDotIndex d
  | .brace l => do
    let l ← visitDotIndexes l
    return reduceE .CONCAT .null l

mutual
/-- portParser.cpp 31-47, inner part: name at the bottom of the chain of first operands, and the chain with this name replaced.
`operands.at(0)` throws if there is no operand; a null operand is neither an operator nor an identifier. -/
def splitName (repl : Str) : Expr → Except Exc (Str × Expr)
  | .op p o l => do
    let (n, l) ← splitNameHead repl l
    return (n, .op p o l)
  | .id p s => .ok (s, .id p repl)
  | _ => .error (.runtime (c! "Expr::extractStr called on expression which is not string or id"))
/-- portParser.cpp 34: the first operand. -/
def splitNameHead (repl : Str) : List Expr → Except Exc (Str × List Expr)
  | [] => .error .outOfRange
  | e :: l => do
    let (n, e) ← splitName repl e
    return (n, e :: l)
end

/-- portParser.cpp 28-49 (`split_type_base_name_and_array_size`): an expression that is just an identifier has no type. -/
def splitTypeBase (repl : Str) : Expr → Except Exc (Str × Expr)
  | .id _ s => .ok (s, .null)
  | e => splitName repl e

/-- portParser.cpp 51-85. The groups of explicitly named ports are only used for a message (lines 287-332). -/
def visitNonansiPort : NonansiPort → Except Exc IdDef
  | .named i e => do
    let name ← identStr i
    let v ← (match e with
      | none => .ok .null
      | some e => visitNonansiExpr e)
    return { name := name, type := .null, value := v }
  | .expr (.brace l) => do
    let e ← visitNonansiExpr (.brace l)
    return { name := [], type := .null, value := e }
  | .expr (.one d) => do
    let e ← visitNonansiExpr (.one d)
    let (n, t) ← splitTypeBase (c! "wire") e
    return { name := n, type := t, value := .null }

/-- portParser.cpp 116-119: `ctx->nonansi_port()` has no entry for an empty position. -/
def visitNonansiPorts : List (Option NonansiPort) → Except Exc (List IdDef)
  | [] => .ok []
  | none :: l => visitNonansiPorts l
  | some p :: l => do
    let p ← visitNonansiPort p
    let l ← visitNonansiPorts l
    return p :: l

/-- portParser.cpp 106-133. -/
def visitPortList : PortList → Except Exc (List IdDef)
  | .nonansi l => visitNonansiPorts l
  | .ansi l => visitAnsiPorts none .null l

/-- portParser.cpp 354-370, 391-402: one name; `t` is the type before its dimensions. -/
def visitVarId (latched : Bool) (dir : Dir) (t : Expr) (v : VarId) : Except Exc IdDef := do
  let t ← applyVDims t v.dims
  let name ← identStr v.name
  let value ← visitOptExp v.value
  return { name := name, type := t, value := value, latched := latched, dir := dir }

/-- portParser.cpp 346-371, 384-403 with `first == false`. -/
def visitVarIdsRest (latched : Bool) (dir : Dir) (base : Expr) : List VarId → Except Exc (List IdDef)
  | [] => .ok []
  | v :: l => do
    let t ← base.clone
    let d ← visitVarId latched dir t v
    let l ← visitVarIdsRest latched dir base l
    return d :: l

/-- portParser.cpp 333-372 (`visitList_of_tf_variable_identifiers`) and 374-404 (`visitList_of_variable_identifiers`): the first name
takes the type itself, the others clones of the object as it is after the first name. -/
def visitVarIds (latched : Bool) (dir : Dir) (base : Expr) : List VarId → Except Exc (List IdDef)
  | [] => .ok []
  | v :: l => do
    let d ← visitVarId latched dir base v
    let base' ← afterDims base v.dims
    let l ← visitVarIdsRest latched dir base' l
    return d :: l

/-- portParser.cpp 202-255. -/
def visitNonansiDecl : NonansiDecl → Except Exc (List IdDef)
  | .inout t l => do
    let t ← visitNetPort t
    visitVarIds false .INOUT t l
  | .input t l => do
    let (t, latched) ← visitNetOrVar t
    visitVarIds latched .IN t l
  | .output t l => do
    let (t, latched) ← visitNetOrVar t
    visitVarIds latched .OUT t l
  | .iface i m l => do
    let t ← visitIdent i
    let t ← (match m with
      | none => .ok t
      | some m => do
        let m ← visitIdent m
        return .mkBin none t .DOT m)
    visitVarIds false .LINKAGE t l
  | .ref t l => do
    let t ← visitVarDType t
    visitVarIds false .LINKAGE t l

/-- portParser.cpp 414-441: the direction is not looked at. -/
def visitTfPort (p : TfPort) : Except Exc IdDef := do
  let t ← visitDTypeOrImpl .null p.type
  let t ← applyVDims t p.dims
  let name ← (match p.name with
    | none => .ok []
    | some i => identStr i)
  let v ← visitOptExp p.value
  return { name := name, type := t, value := v, latched := p.var, dir := .IN }

/-- portParser.cpp 406-413. -/
def visitTfPorts : List TfPort → Except Exc (List IdDef)
  | [] => .ok []
  | p :: l => do
    let p ← visitTfPort p
    let l ← visitTfPorts l
    return p :: l

/-- programParser.cpp 62-83. -/
def visitTfPortDecl (d : TfPortDecl) : Except Exc (List IdDef) := do
  let t ← visitDTypeOrImpl .null d.type
  visitVarIds false (if d.var then .LINKAGE else d.dir.toDir) t d.items

/-! ## Parameters -/

/-- paramDefParser.cpp 140-156: the dimensions are not looked at. -/
def visitParamAssign (p : ParamAssign) : Except Exc IdDef := do
  let v ← (match p.value with
    | none => .ok .null
    | some e => visitPExpr e)
  let name ← identStr p.name
  return { name := name, type := .symb none .T_AUTO, value := v }

/-- paramDefParser.cpp 91-97. -/
def visitParamAssigns : List ParamAssign → Except Exc (List IdDef)
  | [] => .ok []
  | p :: l => do
    let p ← visitParamAssign p
    let l ← visitParamAssigns l
    return p :: l

/-- paramDefParser.cpp 80-88 with `first == false`. -/
def setTypesRest (t : Expr) : List IdDef → Except Exc (List IdDef)
  | [] => .ok []
  | d :: l => do
    let t' ← t.clone
    let l ← setTypesRest t l
    return { d with type := t' } :: l

/-- paramDefParser.cpp 72-89. -/
def visitTypedParams (t : Expr) (l : List ParamAssign) : Except Exc (List IdDef) := do
  let l ← visitParamAssigns l
  match l with
  | [] => return []
  | d :: l =>
    let l ← setTypesRest t l
    return { d with type := t } :: l

/-- paramDefParser.cpp 121-138. -/
def visitTypeAssigns : List TypeAssign → Except Exc (List IdDef)
  | [] => .ok []
  | a :: l => do
    let name ← identStr a.name
    let v ← (match a.type with
      | none => .ok .null
      | some t => visitDType t)
    let l ← visitTypeAssigns l
    return { name := name, type := .symb none .T, value := v } :: l

/-- paramDefParser.cpp 157-182. -/
def visitParamDecl : ParamDecl → Except Exc (List IdDef)
  | .type l => visitTypeAssigns l
  | .val t l => do
    let t ← visitDTypeOrImpl .null t
    visitTypedParams t l

/-- paramDefParser.cpp 184-214. -/
def visitLocalparam (d : ParamDecl) : Except Exc (List IdDef) := do
  let l ← visitParamDecl d
  return l.map fun d => { d with const := true }

/-- paramDefParser.cpp 38-70. -/
def visitPortParam : PortParam → Except Exc (List IdDef)
  | .type l => visitTypeAssigns l
  | .param d => visitParamDecl d
  | .localparam d => visitLocalparam d
  | .typed t l => do
    let t ← visitDType t
    visitTypedParams t l

/-- paramDefParser.cpp 33-35. -/
def visitPortParams : List PortParam → Except Exc (List IdDef)
  | [] => .ok []
  | p :: l => do
    let p ← visitPortParam p
    let l ← visitPortParams l
    return p ++ l

/-- paramDefParser.cpp 19-36: after a `list_of_param_assignments` the function returns. -/
def visitParamPorts : ParamPorts → Except Exc (List IdDef)
  | .assigns l _ => visitParamAssigns l
  | .decls l => visitPortParams l

/-! ## Variables and nets -/

/-- declrParser.cpp 109-128: `class_new` and `dynamic_array_new` leave the null pointer. -/
def visitVarInit : VarInit → Except Exc Expr
  | .none => .ok .null
  | .expr e => visitExp e
  | .new => .ok .null

/-- declrParser.cpp 84-133: `first` is false from the start, so every name gets a clone. -/
def visitVarDecls (base : Expr) : List VarDecl → Except Exc (List IdDef)
  | [] => .ok []
  | v :: l => do
    let name ← identStr v.name
    let t ← base.clone
    let t ← applyVDims t v.dims
    let i ← visitVarInit v.init
    let l ← visitVarDecls base l
    return { name := name, type := t, value := i } :: l

/-- declrParser.cpp 134-175. Without a keyword and without `identifier_with_bit_select` (`typedef foo;`) a null pointer is passed to
`visitIdentifier_with_bit_select`, which dereferences it. -/
def visitTypeDecl : TypeDecl → Except Exc IdDef
  | .data t name dims => do
    let t ← visitDType t
    let t ← applyVDims t dims
    let name ← identStr name
    return { name := name, type := .symb none .T, value := t }
  | .fwd name => do
    let name ← identStr name
    return { name := name, type := .symb none .T, value := .symb none .NULL }
  | .scoped i bits member name => do
    let v ← visitHierParts .null [(i, bits)]
    let m ← visitIdent member
    let name ← identStr name
    return { name := name, type := .symb none .T, value := .mkBin none v .DOT m }
  | .bare _ => .error .ub

/-- declrParser.cpp 73-80: one path for all items. -/
def visitImportItems : List ImportItem → Except Exc (List Expr)
  | [] => .ok []
  | i :: l => do
    let p ← visitIdent i.pkg
    let x ← (match i.item with
      | none => .ok (.symb none .ALL)
      | some x => visitIdent x)
    let l ← visitImportItems l
    return p :: x :: l

/-- declrParser.cpp 17-61. -/
def visitDataDecl : DataDecl → Except Exc (List Obj)
  | .vars const life t l => do
    let t ← visitDTypeOrImpl .null t
    let l ← visitVarDecls t l
    return l.map fun d => .id { d with const := const, static := visitLifetime life }
  | .type d => do
    let d ← visitTypeDecl d
    return [.id d]
  | .import_ l => do
    let l ← visitImportItems l
    return [.import_ {} l]
  | .nettype => .ok []

/-- moduleParser.cpp 372-392: one name; `t` is the type before its dimensions. -/
def visitNetAssign (t : Expr) (n : NetAssign) : Except Exc IdDef := do
  let name ← identStr n.name
  let v ← visitOptExp n.value
  let t ← visitUnpackedDims t n.dims
  return { name := name, type := t, value := v }

/-- moduleParser.cpp 369-393 with `first == false`. -/
def visitNetAssignsRest (base : Expr) : List NetAssign → Except Exc (List IdDef)
  | [] => .ok []
  | n :: l => do
    let t ← base.clone
    let d ← visitNetAssign t n
    let l ← visitNetAssignsRest base l
    return d :: l

/-- moduleParser.cpp 360-394: `applyUnpacked_dimension` does not change the object itself. -/
def visitNetAssigns (base : Expr) : List NetAssign → Except Exc (List IdDef)
  | [] => .ok []
  | n :: l => do
    let d ← visitNetAssign base n
    let l ← visitNetAssignsRest base l
    return d :: l

/-- moduleParser.cpp 289-357. -/
def visitNetDecl : NetDecl → Except Exc (List IdDef)
  | .interconnect => .ok []
  | .net kw extra t l =>
    if extra then .ok []
    else do
      let t ← visitDTypeOrImpl (.id none kw) t
      visitNetAssigns t l
  | .user _ l => visitNetAssigns (.symb none .T_AUTO) l

end Verif.Sv
