import Verif.Vhdl.Stm
/-!
# Model of the VHDL visitors for declarations, concurrent statements and design units

src/vhdlConvertor/{interfaceParser,directionParser,constantParser,signalParser,variableParser,aliasParser,typeDeclarationParser,
subProgramDeclarationParser,subProgramParser,processParser,packageHeaderParser,packageParser,entityParser,archParser,
blockDeclarationParser,blockParser,compInstanceParser,generateStatementParser,designFileParser}.cpp and the concurrent part of
statementParser.cpp. `h` is `hierarchyOnly`. Messages of `NotImplementedLogger` are not modelled.
-/
namespace Verif.Vhdl
open Verif

/-- interfaceParser.cpp 26-28: the value, a null pointer if there is none. -/
def visitInit : Option Expression → Except Exc Expr
  | none => .ok .null
  | some e => visitExpression e

/-- interfaceParser.cpp 41-44: a copy of the value, if there is one. -/
def cloneOpt : Expr → Except Exc Expr
  | .null => .ok .null
  | v => v.clone

/-- interfaceParser.cpp 32-50 for the names behind the first one: type and value are copies. -/
def cloneVars (t v : Expr) : List Str → Except Exc (List IdDef)
  | [] => .ok []
  | n :: l => do
    let t' ← t.clone
    let v' ← cloneOpt v
    let l ← cloneVars t v l
    return { name := n, type := t', value := v' } :: l

/-- interfaceParser.cpp 17-52 (`extractVariables`). -/
def extractVars (v : VarList) : Except Exc (List IdDef) := do
  let t ← visitSubInd v.type
  let e ← visitInit v.init
  match v.names with
  | [] => return []
  | n :: l =>
    let l ← cloneVars t e l
    return { name := n, type := t, value := e } :: l

/-- directionParser.cpp 8-24. -/
def visitMode : Option Mode → Dir
  | none => .IN
  | some .in_ => .IN
  | some .out => .OUT
  | some .inout => .INOUT
  | some .buffer => .BUFFER
  | some .linkage => .LINKAGE

/-- interfaceParser.cpp 53-175 (`visitInterface_declaration` and the functions it calls). -/
def visitIntf : Intf → Except Exc (List IdDef)
  | .const v _ => do
    let l ← extractVars v
    return l.map fun d => { d with const := true }
  | .sig _ v m _ => do
    let l ← extractVars v
    return l.map fun d => { d with dir := visitMode m }
  | .var v m => do
    let l ← extractVars v
    return l.map fun d => { d with dir := visitMode m, latched := true }
  | .file _ _ => .ok []
  | .type _ => .ok []
  | .subprogram _ => .ok []
  | .package _ => .ok []

/-- interfaceParser.cpp 176-189, entityParser.cpp 71-103. -/
def visitIntfs : List Intf → Except Exc (List IdDef)
  | [] => .ok []
  | i :: l => do
    let i ← visitIntf i
    let l ← visitIntfs l
    return i ++ l

/-- typeDeclarationParser.cpp 150-163. -/
def visitEnumLits : List EnumLit → Except Exc (List (Option Str) × List Expr)
  | [] => .ok ([], [])
  | .ident t :: l => do
    let r ← visitEnumLits l
    return (some t :: r.1, .null :: r.2)
  | .chr t :: l => do
    let v ← vhdlChar t
    let r ← visitEnumLits l
    return (none :: r.1, .int none v :: r.2)

/-- literalParser.cpp 93-113. -/
def visitPhysLit : PhysLit → Except Exc Expr
  | .name n => visitName n
  | .dec t n => do
    let n ← visitName n
    let v ← visitDec t
    return .mkBin none v .UNIT_SPEC n
  | .based t n => do
    let n ← visitName n
    let v ← vhdlBased t
    return .mkBin none (.int none v) .UNIT_SPEC n

/-- typeDeclarationParser.cpp 210-216. -/
def visitUnits : List (Str × PhysLit) → Except Exc (List Expr)
  | [] => .ok []
  | (_, p) :: l => do
    let p ← visitPhysLit p
    let l ← visitUnits l
    return p :: l

/-- typeDeclarationParser.cpp 241-255: `T range <>`. -/
def visitIndexTypes : List Name → Except Exc (List Expr)
  | [] => .ok []
  | n :: l => do
    let n ← visitName n
    let l ← visitIndexTypes l
    return .mkBin none n .RANGE (.symb none .OPEN) :: l

/-- typeDeclarationParser.cpp 275-294. -/
def visitMembers : List (List Str × SubInd) → Except Exc (List IdDef)
  | [] => .ok []
  | (ns, t) :: l => do
    let d ← extractVars ⟨ns, t, none⟩
    let l ← visitMembers l
    return d ++ l

/-- The `HdlIdDef` of a type (typeDeclarationParser.cpp 82). -/
def typeDef (name : Str) (v : Expr) : Obj := .id { name := name, type := .symb none .T, value := v }

/-- typeDeclarationParser.cpp 49-294. -/
def visitTypeDef (name : Str) : TypeDef → Except Exc Obj
  | .enum l => do
    let r ← visitEnumLits l
    return typeDef name (.enumDef none [] .null r.1 r.2)
  | .range r => do
    let r ← visitRange r
    return typeDef name (.mkUn none .RANGE r)
  | .phys r p l => do
    let r ← visitRange r
    let us ← visitUnits l
    return typeDef name (.physDef none [] (.mkUn none .RANGE r) (p :: l.map (·.1)) (.null :: us))
  | .unbounded l e => do
    let e ← visitSubInd e
    let l ← visitIndexTypes l
    return typeDef name (.op none .INDEX (e :: l))
  | .constrained l e => do
    let e ← visitSubInd e
    let l ← visitDiscrs l
    return typeDef name (.mkIndex none e l)
  | .record l => do
    let l ← visitMembers l
    return .record name l
  | .access _ => .ok (typeDef name (.notImpl none))
  | .file _ => .ok (typeDef name (.notImpl none))
  | .protected_ => .ok (typeDef name (.notImpl none))

/-- referenceParser.cpp 14-27: the loop over the suffixes. -/
def visitSuffixes (top : Expr) : List Suffix → Except Exc Expr
  | [] => .ok top
  | s :: l => do
    let s ← visitSuffix s
    visitSuffixes (.mkBin none top .DOT s) l

/-- referenceParser.cpp 14-27. -/
def visitSelName (n : SelName) : Except Exc Expr := visitSuffixes (.id none n.head) n.rest

mutual
/-- designFileParser.cpp 171-184 (`flatten_doted_expr`). -/
def flattenDot : Expr → List Expr
  | .op p o l => if o = .DOT then flattenDots l else [.op p o l]
  | e => [e]
def flattenDots : List Expr → List Expr
  | [] => []
  | e :: l => flattenDot e ++ flattenDots l
end

/-- designFileParser.cpp 186-199. -/
def visitUse : List SelName → Except Exc (List Obj)
  | [] => .ok []
  | n :: l => do
    let r ← visitSelName n
    let l ← visitUse l
    return .import_ {} (flattenDot r) :: l

/-- literalParser.cpp 204-217. -/
def Designator.text : Designator → Str
  | .ident t => t
  | .opSymbol t => t

/-- literalParser.cpp 204-207. -/
def Designator.isOp : Designator → Bool
  | .ident _ => false
  | .opSymbol _ => true

/-- subProgramDeclarationParser.cpp 27-102 and subProgramParser.cpp 43-111. -/
def visitSubSpec : SubSpec → Except Exc FnHead
  | .proc d _ params => do
    let params ← visitIntfs params
    return { name := d.text, ret := .null, params := params, operator := d.isOp }
  | .func impure d _ params ret => do
    let ret ← visitName ret
    let params ← visitIntfs params
    return { name := d.text, ret := ret, params := params, operator := d.isOp, impure := impure }

/-- aliasParser.cpp 19-22. -/
def visitAliasType : Option SubInd → Except Exc Expr
  | none => .ok .null
  | some s => visitSubInd s

/-- Generics and ports of entities and components: not with `hierarchyOnly` (entityParser.cpp 29-34, blockDeclarationParser.cpp
59-66, packageHeaderParser.cpp 91-98). -/
def visitIntfsH (h : Bool) (l : List Intf) : Except Exc (List IdDef) :=
  if h then .ok [] else visitIntfs l

mutual
/-- processParser.cpp 69-215 (`visitProcess_declarative_item`), entityParser.cpp 45-70, blockDeclarationParser.cpp 23-68,
packageHeaderParser.cpp 16-100, packageParser.cpp 12-31, subProgramParser.cpp 18-41. Everything that is not implemented is dropped. -/
def visitDecl (h : Bool) : Decl → Except Exc (List Obj)
  | .subprogram s => do
    let f ← visitSubSpec s
    return [.fn f []]
  | .subInst _ => .ok []
  | .package n _ l => do
    let l ← (if h then .ok [] else visitDecls h l)
    return [.idspace n true l]
  | .packageInst _ => .ok []
  | .typeIncomplete n => .ok [typeDef n .null]
  | .type n t => do
    let t ← visitTypeDef n t
    return [t]
  | .subtype n s => do
    let t ← visitSubInd s
    return [.id { name := n, type := .symb none .T_SUBTYPE, value := t }]
  | .constant v => do
    let l ← extractVars v
    return l.map fun d => .id { d with const := true }
  | .variable sh v => do
    let l ← extractVars v
    return l.map fun d => .id { d with latched := true, shared := sh }
  | .signal v _ => do
    let l ← extractVars v
    return l.map .id
  | .file _ _ => .ok []
  | .alias_ d t n _ => do
    let t ← visitAliasType t
    let n ← visitName n
    return [.id { name := d, type := t, value := n, alias_ := true }]
  | .attrDecl _ => .ok []
  | .attrSpec _ => .ok []
  | .use l => visitUse l
  | .groupTemplate _ => .ok []
  | .group _ => .ok []
  | .disconnect => .ok []
  | .subBody s ds ss => do
    let f ← visitSubSpec s
    let ds ← visitDecls h ds
    let ss ← visitSeqs ss
    return [.fn { f with declOnly := false } (ds ++ ss)]
  | .packageBody n l => do
    let l ← (if h then .ok [] else visitDecls h l)
    return [.idspace n false l]
  | .component n g p => do
    let g ← visitIntfsH h g
    let p ← visitIntfsH h p
    return [.modDec n g p []]
  | .configSpec => .ok []
/-- The loops over declarative items. -/
def visitDecls (h : Bool) : List Decl → Except Exc (List Obj)
  | [] => .ok []
  | d :: l => do
    let d ← visitDecl h d
    let l ← visitDecls h l
    return d ++ l
end

/-! ## Concurrent statements -/

/-- processParser.cpp 33-59. -/
def visitProcSens : ProcSens → Except Exc (Option (List Expr))
  | .none => .ok none
  | .all => .ok (some [.symb none .ALL])
  | .names l => do
    let l ← visitNames l
    return some l

/-- processParser.cpp 23-49. -/
def visitProcess (h : Bool) (sens : ProcSens) (ds : List Decl) (ss : List Seq) : Except Exc Obj := do
  let sens ← visitProcSens sens
  let ds ← visitDecls h ds
  let ss ← visitSeqs ss
  return .process {} .NONE sens (.block {} .SEQ (ds ++ ss))

/-- The state of statementParser.cpp 650-675: the pointer `dst` (null once moved), the branches and the default. -/
structure SelSt where
  dst : Expr
  cases : List Branch := []
  dflt : Obj := .null

/-- statementParser.cpp 660-664: the target of the next assignment. -/
def selDst (dst0 : Expr) (st : SelSt) : Except Exc Expr :=
  match st.cases with
  | [] => .ok st.dst
  | _ :: _ => dst0.clone

/-- statementParser.cpp 658-672: the loop over the choices of one waveform; `dst0` is what `dst_tmp` points to. It stays alive: the first
assignment owns it, and with an empty `cases` it is not used. -/
def selChoices (dst0 : Expr) (w : Waveform) : List Expr → SelSt → Except Exc SelSt
  | [], st => .ok st
  | c :: l, st => do
    let we ← visitWaveform w
    let dst ← selDst dst0 st
    let a ← mkAssign dst we .null none false
    if isOthers c then selChoices dst0 w l { st with dst := .null, dflt := a }
    else selChoices dst0 w l { st with dst := .null, cases := st.cases ++ [.mk c a] }

/-- statementParser.cpp 656-675. -/
def selWaves (dst0 : Expr) : List (Waveform × List Choice) → SelSt → Except Exc SelSt
  | [], st => .ok st
  | (w, ch) :: l, st => do
    let ch ← visitChoices ch
    let st ← selChoices dst0 w ch st
    selWaves dst0 l st

/-- statementParser.cpp 642-708. -/
def visitSelected (e : Expression) (t : Target) (l : List (Waveform × List Choice)) : Except Exc Obj := do
  let sel ← visitExpression e
  let dst ← visitTarget t
  let st ← selWaves dst l { dst := dst }
  return .case {} .NONE .CASE sel st.cases st.dflt

/-- statementParser.cpp 760-790, 201-213, 679-758: `postponed`, `guarded`, the delay mechanism and the question mark are ignored. -/
def visitConcKind (h : Bool) : ConcKind → Except Exc Obj
  | .process _ sens ds ss => visitProcess h sens ds ss
  | .call _ n => do
    let e ← visitProcCall n
    return .expr {} e
  | .assert_ _ c r s => visitAssertion c r s
  | .assign _ _ t _ w => do
    let dst ← visitTarget t
    let src ← visitWaveform w
    mkAssign dst src .null none false
  | .assignCond _ _ t _ c => do
    let dst ← visitTarget t
    let src ← visitCondWaves c
    mkAssign dst src .null none false
  | .assignSel _ _ e _ t _ l => visitSelected e t l

/-- compInstanceParser.cpp 44-59. -/
def InstUnit.unit : InstUnit → Name
  | .component _ n => n
  | .entity n _ => n
  | .config n => n

/-- compInstanceParser.cpp 27-40. -/
def visitMap : Option (List Assoc) → Except Exc (List Expr)
  | none => .ok []
  | some l => visitAssocs l

/-- compInstanceParser.cpp 16-59. -/
def visitInst (label : Str) (u : InstUnit) (g p : Option (List Assoc)) : Except Exc Obj := do
  let n ← visitName u.unit
  let g ← visitMap g
  let p ← visitMap p
  return .inst (.id none label) n g p

/-- generateStatementParser.cpp 188-196. -/
def mkGenBody (decls : List Decl) (hasBegin : Bool) (l : List Obj) : Obj :=
  match decls, hasBegin, l with
  | [], false, [o] => o
  | _, _, l => .block { preproc := true } .SEQ l

/-- generateStatementParser.cpp 114-117: the labels of the `if generate` (`ctx->label()`), in the order of the text. -/
def GenCond.label : GenCond → Option Str
  | .mk l _ _ => l

/-- As above, the label of the `else` branch. -/
def GenElse.label : GenElse → Option Str
  | .none => Option.none
  | .some l _ => l

/-- generateStatementParser.cpp 114-117: only the first label is kept. -/
def ifGenLabels (c : GenCond) (elifs : List GenCond) (f : GenElse) (endLabel : Option Str) : List Str :=
  ((c.label :: elifs.map GenCond.label ++ [f.label, endLabel]).filterMap id).take 1

mutual
/-- statementParser.cpp 792-844, blockParser.cpp 28-52, generateStatementParser.cpp 29-164. The visitor leaves out a statement if the
visitor of the statement returns a null pointer (836, 841), which it never does. Condition and body of the generate statements are
visited in the order of the code, except that a body that is visited for every choice is visited once. -/
def visitConc (h : Bool) : Conc → Except Exc Obj
  | .plain none s => visitConcKind h s
  | .plain (some l) s => do
    let o ← visitConcKind h s
    return pushLabel l o
  | .block label _ _ _ ds ss => do
    let ds ← visitDecls h ds
    let ss ← visitConcs h ss
    return pushLabel label (.block { preproc := true } .SEQ (ds ++ ss))
  | .inst label u g p => visitInst label u g p
  | .forGen label i d body endl => do
    let d ← visitDiscr d
    let b ← visitGenBody h body
    return pushLabel label (appendLabel endl (.forIn { preproc := true } [.expr {} (.id none i)] d b))
  | .ifGen label c el f endl => do
    let r ← visitGenCond h c
    let els ← visitGenConds h el
    let fs ← visitGenElse h f
    return pushLabel label (.if_ { labels := ifGenLabels c el f endl, preproc := true } r.1 r.2 els fs)
  | .caseGen label e alts _ => do
    let e ← visitExpression e
    let bs ← visitGenAlts h alts
    return pushLabel label (.case { preproc := true } .NONE .CASE e bs .null)
/-- The loops over concurrent statements. -/
def visitConcs (h : Bool) : List Conc → Except Exc (List Obj)
  | [] => .ok []
  | c :: l => do
    let c ← visitConc h c
    let l ← visitConcs h l
    return c :: l
/-- generateStatementParser.cpp 93-94, 99-100. -/
def visitGenCond (h : Bool) : GenCond → Except Exc (Expr × Obj)
  | .mk _ c b => do
    let c ← visitExpression c
    let b ← visitGenBody h b
    return (c, b)
/-- generateStatementParser.cpp 98-104. -/
def visitGenConds (h : Bool) : List GenCond → Except Exc (List Branch)
  | [] => .ok []
  | c :: l => do
    let c ← visitGenCond h c
    let l ← visitGenConds h l
    return .mk c.1 c.2 :: l
/-- generateStatementParser.cpp 107-109. -/
def visitGenElse (h : Bool) : GenElse → Except Exc Obj
  | .none => .ok .null
  | .some _ b => visitGenBody h b
/-- generateStatementParser.cpp 140-159: `visitChoices` never gives a null pointer, so `others` is a branch and `_default` stays null. -/
def visitGenAlts (h : Bool) : List GenAlt → Except Exc (List Branch)
  | [] => .ok []
  | .mk _ ch b :: l => do
    let ch ← visitChoices ch
    let bs ← (match ch with
      | [] => .ok []
      | ch => do
        let b ← visitGenBody h b
        return ch.map fun c => .mk c b)
    let l ← visitGenAlts h l
    return bs ++ l
/-- generateStatementParser.cpp 166-197. -/
def visitGenBody (h : Bool) : GenBody → Except Exc Obj
  | .mk ds bg ss => do
    let os ← visitDecls h ds
    let ss ← visitConcs h ss
    return mkGenBody ds bg (os ++ ss)
end

/-! ## Design units -/

/-- designFileParser.cpp 139-169: a context reference is neither a library clause nor a use clause, nothing happens. -/
def visitContextItem : ContextItem → Except Exc (List Obj)
  | .library l => .ok (l.map .library)
  | .use l => visitUse l
  | .contextRef _ => .ok []

/-- designFileParser.cpp 84-94. -/
def visitContextItems : List ContextItem → Except Exc (List Obj)
  | [] => .ok []
  | i :: l => do
    let i ← visitContextItem i
    let l ← visitContextItems l
    return i ++ l

/-- designFileParser.cpp 45-138, entityParser.cpp 15-43, archParser.cpp 13-39 (packages: `visitDecl`). -/
def visitLibUnit (h : Bool) : LibUnit → Except Exc (List Obj)
  | .entity n g p ds _ => do
    let g ← visitIntfsH h g
    let p ← visitIntfsH h p
    let ds ← (if h then .ok [] else visitDecls h ds)
    return [.modDec n g p ds]
  | .config _ => .ok []
  | .package n g l => visitDecl h (.package n g l)
  | .packageInst _ => .ok []
  | .context _ => .ok []
  | .arch n e ds ss => do
    let e ← visitName e
    let ds ← (if h then .ok [] else visitDecls h ds)
    let ss ← visitConcs h ss
    return [.modDef n e .null (ds ++ ss)]
  | .packageBody n l => visitDecl h (.packageBody n l)

/-- designFileParser.cpp 35-44. -/
def visitDesignUnit (h : Bool) (u : DesignUnit) : Except Exc (List Obj) := do
  let c ← visitContextItems u.ctx
  let l ← visitLibUnit h u.unit
  return c ++ l

/-- designFileParser.cpp 23-33: the objects of the context. -/
def visitDesignFile (h : Bool) : List DesignUnit → Except Exc (List Obj)
  | [] => .ok []
  | u :: l => do
    let u ← visitDesignUnit h u
    let l ← visitDesignFile h l
    return u ++ l

end Verif.Vhdl
