import Verif.Sv.Module
/-!
# SystemVerilog files without empty concatenations and `do`-`while` statements

`full…`: no `{}` anywhere in the construct, no `do`-`while` statement, and no `extern` module whose first port has no direction. Written
down for every construct of the grammar, whether or not the front end looks at it.
-/
namespace Verif.Spec.Sv
open Verif Verif.Sv

mutual
def fullExp : Exp → Prop
  | .prim p => fullPrim p
  | .opAssign | .tagged => True
  | .unary _ p => fullPrim p
  | .incDec _ _ l => fullLVal l
  | .bin a _ b => fullExp a ∧ fullExp b
  | .tripleAnd a _ b _ => fullExp a ∧ fullExp b
  | .inside e => fullExp e
  | .cond c _ t e => fullExp c ∧ fullExp t ∧ fullExp e
def fullPrim : Prim → Prop
  | .lit _ | .cast | .streaming | .tfCall0 _ | .randomize | .randomize2 => True
  | .path p => fullPath p
  | .par m => fullMTM m
  | .cast2 p e => fullPrim p ∧ fullExp e
  | .bitSel p e => fullPrim p ∧ fullExp e
  | .dot p _ => fullPrim p
  | .index p r => fullPrim p ∧ fullARange r
  | .concat c => fullConcat c
  | .tfCall _ l _ => fullArgs l
  | .tfCallT _ t l _ => fullDType t ∧ fullArgs l
  | .assig _ a => fullPattern a
  | .typeRef t => fullTRef t
  | .call0 p _ _ => fullPrim p
  | .call p _ l _ => fullPrim p ∧ fullArgs l
  | .methodNoArgs p _ => fullPrim p
  | .callWith p _ e => fullPrim p ∧ fullExp e
def fullMTM : MTM → Prop
  | .one e => fullExp e
  | .three a b c => fullExp a ∧ fullExp b ∧ fullExp c
def fullARange : ARange → Prop
  | .one e => fullExp e
  | .range a b | .plus a b | .minus a b => fullExp a ∧ fullExp b
/-- The rule of the grammar allows `{}`. -/
def fullConcat : Concat → Prop
  | .list l => l ≠ [] ∧ fullExps l
  | .repl n c => fullExp n ∧ fullConcat c
def fullExps : List Exp → Prop
  | [] => True
  | e :: l => fullExp e ∧ fullExps l
def fullPath : Path → Prop
  | .mk _ _ l => fullPathItems l
def fullPathItems : List PathItem → Prop
  | [] => True
  | i :: l => fullPathItem i ∧ fullPathItems l
def fullPathItem : PathItem → Prop
  | .mk _ p => fullPVA p
def fullPVA : PVA → Prop
  | .none => True
  | .ordered l => fullPExprs l
  | .named l => fullNamedPs l
def fullPExprs : List PExpr → Prop
  | [] => True
  | e :: l => fullPExpr e ∧ fullPExprs l
def fullPExpr : PExpr → Prop
  | .mtm m => fullMTM m
  | .type t => fullDType t
def fullNamedPs : List NamedP → Prop
  | [] => True
  | e :: l => fullNamedP e ∧ fullNamedPs l
def fullNamedP : NamedP → Prop
  | .empty _ => True
  | .val _ e => fullPExpr e
def fullDType : DType → Prop
  | .string | .chandle | .event => True
  | .virtual _ p _ => fullPVA p
  | .prim _ l | .enum l | .struct l => fullVDims l
  | .path p l => fullPath p ∧ fullVDims l
  | .typeRef t => fullTRef t
def fullVDims : List VDim → Prop
  | [] => True
  | d :: l => fullVDim d ∧ fullVDims l
def fullVDim : VDim → Prop
  | .empty | .star => True
  | .type t => fullDType t
  | .range r => fullARange r
def fullTRef : TRef → Prop
  | .expr e => fullExp e
  | .type t => fullDType t
def fullPattern : Pattern → Prop
  | .list l => fullExps l
  | .keyed l => fullKVs l
  | .repl n l => fullExp n ∧ fullExps l
def fullKVs : List KV → Prop
  | [] => True
  | e :: l => fullKV e ∧ fullKVs l
def fullKV : KV → Prop
  | .mk k e => fullKey k ∧ fullExp e
def fullKey : Key → Prop
  | .ident _ | .dflt | .intType | .nonIntType => True
  | .path p => fullPath p
  | .expr e => fullExp e
/-- The rule of the grammar does not allow `{}` here. -/
def fullLVal : LVal → Prop
  | .brace l => l ≠ [] ∧ fullLVals l
  | .hier h => fullHSel h
  | .pattern | .streaming => True
def fullLVals : List LVal → Prop
  | [] => True
  | e :: l => fullLVal e ∧ fullLVals l
def fullHSel : HSel → Prop
  | .mk p b m s => fullPath p ∧ fullExps b ∧ fullMembers m ∧ fullSel s
def fullMembers : List Member → Prop
  | [] => True
  | .mk _ b :: l => fullExps b ∧ fullMembers l
def fullSel : Sel → Prop
  | .none => True
  | .range a b | .plus a b | .minus a b => fullExp a ∧ fullExp b
def fullArgs : List Arg → Prop
  | [] => True
  | a :: l => fullArg a ∧ fullArgs l
def fullArg : Arg → Prop
  | .comma | .namedEmpty _ => True
  | .expr e | .named _ e => fullExp e
end

/-- An optional part. -/
def fullOpt {α : Type} (P : α → Prop) (o : Option α) : Prop := ∀ x, o = some x → P x

def fullHierId (h : HierId) : Prop := ∀ p ∈ h.parts, fullExps p.2
def fullImplType (t : ImplType) : Prop := ∀ d ∈ t.dims, fullOpt fullARange d

def fullTypeI : DTypeOrImpl → Prop
  | .type t => fullDType t
  | .impl t => fullImplType t

def fullAssign (a : LVal × Exp) : Prop := fullLVal a.1 ∧ fullExp a.2
def fullOpAssign (a : OpAssign) : Prop := fullLVal a.dst ∧ fullExp a.src
def fullCondPred (c : CondPred) : Prop := fullExp c.head ∧ ∀ p ∈ c.rest, fullExp p.1

/-! ## Declarations -/

def fullNetOrVar : NetOrVar → Prop
  | .interconnect t => fullOpt fullImplType t
  | .var t | .net _ t => fullOpt fullTypeI t
  | .type t => fullTypeI t

def fullNetPort : NetPort → Prop
  | .interconnect t => fullOpt fullImplType t
  | .net _ t => fullOpt fullTypeI t
  | .type t => fullTypeI t

def fullVarDType : VarDType → Prop
  | .var t => fullOpt fullTypeI t
  | .type t => fullDType t

def fullAnsiHead : AnsiHead → Prop
  | .none | .iface _ _ => True
  | .dir _ t => fullOpt fullNetOrVar t
  | .type t => fullNetOrVar t

def fullAnsiPort : AnsiPort → Prop
  | .decl h _ l v => fullAnsiHead h ∧ fullVDims l ∧ fullOpt fullExp v
  | .expl _ _ v => fullOpt fullExp v

def fullDotIndex (d : DotIndex) : Prop := ∀ r ∈ d.index, fullARange r

/-- The rule of the grammar does not allow `{}` here. A port that is not an expression may have no value. -/
def fullNonansiExpr : NonansiExpr → Prop
  | .one d => fullDotIndex d
  | .brace l => ∀ d ∈ l, fullDotIndex d

def fullNonansiPort : NonansiPort → Prop
  | .expr e => fullNonansiExpr e
  | .named _ e => fullOpt fullNonansiExpr e

def fullPortList : PortList → Prop
  | .nonansi l => ∀ p ∈ l, fullOpt fullNonansiPort p
  | .ansi l => ∀ p ∈ l, fullAnsiPort p

def fullVarId (v : VarId) : Prop := fullVDims v.dims ∧ fullOpt fullExp v.value

def fullNonansiDecl : NonansiDecl → Prop
  | .inout t l => fullOpt fullNetPort t ∧ ∀ v ∈ l, fullVarId v
  | .input t l | .output t l => fullOpt fullNetOrVar t ∧ ∀ v ∈ l, fullVarId v
  | .iface _ _ l => ∀ v ∈ l, fullVarId v
  | .ref t l => fullOpt fullVarDType t ∧ ∀ v ∈ l, fullVarId v

def fullTfPort (p : TfPort) : Prop := fullOpt fullTypeI p.type ∧ fullVDims p.dims ∧ fullOpt fullExp p.value
def fullTfPortDecl (d : TfPortDecl) : Prop := fullOpt fullTypeI d.type ∧ ∀ v ∈ d.items, fullVarId v

def fullParamAssign (p : ParamAssign) : Prop := (∀ r ∈ p.dims, fullARange r) ∧ fullOpt fullPExpr p.value
def fullTypeAssign (a : TypeAssign) : Prop := fullOpt fullDType a.type

def fullParamDecl : ParamDecl → Prop
  | .type l => ∀ a ∈ l, fullTypeAssign a
  | .val t l => fullOpt fullTypeI t ∧ ∀ p ∈ l, fullParamAssign p

def fullPortParam : PortParam → Prop
  | .type l => ∀ a ∈ l, fullTypeAssign a
  | .param d | .localparam d => fullParamDecl d
  | .typed t l => fullDType t ∧ ∀ p ∈ l, fullParamAssign p

def fullParamPorts : ParamPorts → Prop
  | .assigns l r => (∀ p ∈ l, fullParamAssign p) ∧ ∀ p ∈ r, fullPortParam p
  | .decls l => ∀ p ∈ l, fullPortParam p

def fullVarInit : VarInit → Prop
  | .none | .new => True
  | .expr e => fullExp e

def fullVarDecl (v : VarDecl) : Prop := fullVDims v.dims ∧ fullVarInit v.init

def fullTypeDecl : TypeDecl → Prop
  | .data t _ l => fullDType t ∧ fullVDims l
  | .fwd _ | .bare _ => True
  | .scoped _ b _ _ => fullExps b

def fullDataDecl : DataDecl → Prop
  | .vars _ _ t l => fullOpt fullTypeI t ∧ ∀ v ∈ l, fullVarDecl v
  | .type d => fullTypeDecl d
  | .import_ _ | .nettype => True

def fullNetAssign (n : NetAssign) : Prop := (∀ r ∈ n.dims, fullARange r) ∧ fullOpt fullExp n.value

def fullNetDecl : NetDecl → Prop
  | .interconnect => True
  | .net _ _ t l => fullOpt fullTypeI t ∧ ∀ n ∈ l, fullNetAssign n
  | .user _ l => ∀ n ∈ l, fullNetAssign n

/-! ## Statements -/

mutual
def fullEventItem : EventItem → Prop
  | .par l => fullEventItems l
  | .ev _ e i => fullExp e ∧ fullOpt fullExp i
def fullEventItems : List EventItem → Prop
  | [] => True
  | i :: l => fullEventItem i ∧ fullEventItems l
end

def fullEventCtl : EventCtl → Prop
  | .star => True
  | .id h => fullHSel h
  | .events l => fullEventItems l

def fullDelayVal : DelayVal → Prop
  | .num _ | .time _ | .step1 | .real _ | .ps _ _ => True
  | .hier h => fullHierId h

def fullDelayCtl : DelayCtl → Prop
  | .mtm m => fullMTM m
  | .value v => fullDelayVal v

def fullTimingCtl : TimingCtl → Prop
  | .delay d => fullDelayCtl d
  | .event e => fullEventCtl e
  | .cycle | .cycleRange => True

def fullDelayOrEvent : DelayOrEvent → Prop
  | .delay d => fullDelayCtl d
  | .event r e => fullOpt fullExp r ∧ fullEventCtl e

def fullBlockDecl : BlockDecl → Prop
  | .data d => fullDataDecl d
  | .localparam d | .param d => fullParamDecl d
  | .let_ => True

def fullForDecl (d : ForDecl) : Prop := fullDType d.type ∧ ∀ i ∈ d.items, fullExp i.2

def fullForInit : ForInit → Prop
  | .assigns l => ∀ a ∈ l, fullAssign a
  | .decls l => ∀ d ∈ l, fullForDecl d

def fullMatchItem : MatchItem → Prop
  | .assign a => fullOpAssign a
  | .expr e => fullExp e

mutual
def fullStm : Stm → Prop
  | .mk _ i => fullStmItem i
def fullStmN : StmN → Prop
  | .stm s => fullStm s
  | .semi => True
def fullStmNs : List StmN → Prop
  | [] => True
  | s :: l => fullStmN s ∧ fullStmNs l
def fullStmItem : StmItem → Prop
  | .blocking d c s => fullLVal d ∧ fullDelayOrEvent c ∧ fullExp s
  | .arrayNew d => fullLVal d
  | .classNew | .unsupported _ | .break_ | .continue_ => True
  | .opAssign a => fullOpAssign a
  | .nonblocking d c s => fullLVal d ∧ fullOpt fullDelayOrEvent c ∧ fullExp s
  | .incDec _ _ l => fullLVal l
  | .prim p => fullPrim p
  | .caseInside _ e l | .caseMatches _ _ e l | .case _ _ e l => fullExp e ∧ fullCaseItems l
  | .if_ _ c t => fullCondPred c ∧ fullStmN t
  | .ifElse _ c t f => fullCondPred c ∧ fullStmN t ∧ fullStmN f
  | .voidCall e => fullExp e
  | .forever b => fullStmN b
  | .repeat_ e b | .while_ e b => fullExp e ∧ fullStmN b
  | .doWhile _ _ => False
  | .for_ i c s b => fullOpt fullForInit i ∧ fullOpt fullExp c ∧ (∀ m ∈ s, fullMatchItem m) ∧ fullStmN b
  | .foreach h _ b => fullHSel h ∧ fullStm b
  | .return_ e => fullOpt fullExp e
  | .par _ ds l _ _ | .seq _ ds l _ => (∀ d ∈ ds, fullBlockDecl d) ∧ fullStmNs l
  | .timing t b => fullTimingCtl t ∧ fullStmN b
def fullCaseItem : CaseItem → Prop
  | .dflt s => fullStmN s
  | .exprs l s => fullExps l ∧ fullStmN s
def fullCaseItems : List CaseItem → Prop
  | [] => True
  | i :: l => fullCaseItem i ∧ fullCaseItems l
end

/-! ## Modules -/

def fullNamedConn : NamedConn → Prop
  | .star | .name _ | .empty _ => True
  | .val _ e => fullExp e

def fullConns : Conns → Prop
  | .ordered l => ∀ c ∈ l, fullOpt fullExp c
  | .named l => ∀ c ∈ l, fullNamedConn c

def fullHierInst (h : HierInst) : Prop := (∀ r ∈ h.dims, fullARange r) ∧ fullConns h.conns
def fullModInst (m : ModInst) : Prop := fullPVA m.params ∧ ∀ h ∈ m.insts, fullHierInst h

def fullGateName (n : Option (Ident × List ARange)) : Prop := fullOpt (fun n => ∀ r ∈ n.2, fullARange r) n

def fullGate : Gate → Prop
  | .nOut _ l => ∀ i ∈ l, fullGateName i.name ∧ fullLVals i.outs ∧ fullExp i.inp
  | .nIn _ l => ∀ i ∈ l, fullGateName i.name ∧ fullLVal i.out ∧ fullExps i.ins
  | .other => True

def fullTfItem : TfItem → Prop
  | .block d => fullBlockDecl d
  | .port d => fullTfPortDecl d

def fullTfHead : TfHead → Prop
  | .items l => ∀ i ∈ l, fullTfItem i
  | .ports l ds => (∀ p ∈ l, fullTfPort p) ∧ ∀ d ∈ ds, fullBlockDecl d

def fullTfDecl (d : TfDecl) : Prop := fullTfHead d.head ∧ fullStmNs d.body

def fullFnRet : FnRet → Prop
  | .none | .void => True
  | .type t => fullDType t
  | .impl t => fullImplType t

def fullTfDef : TfDef → Prop
  | .task _ d => fullTfDecl d
  | .function _ r d => fullFnRet r ∧ fullTfDecl d

def fullGenIter : GenIter → Prop
  | .assign _ _ e => fullExp e
  | .incDec _ _ _ => True

mutual
def fullGenItem : GenItem → Prop
  | .ignored _ | .semi | .genvar _ => True
  | .gate g => fullGate g
  | .inst m => fullModInst m
  | .localparam d | .param d => fullParamDecl d
  | .net d => fullNetDecl d
  | .data d => fullDataDecl d
  | .tf d => fullTfDef d
  | .assign l => ∀ a ∈ l, fullAssign a
  | .initial s => fullStmN s
  | .always _ s => fullStm s
  | .loop i c s b => fullExp i.value ∧ fullExp c ∧ fullGenIter s ∧ fullGItem b
  | .if_ c t => fullExp c ∧ fullGItem t
  | .ifElse c t f => fullExp c ∧ fullGItem t ∧ fullGItem f
  | .case e l => fullExp e ∧ fullCaseGItems l
  | .elab t => fullArgs t.args
def fullGItem : GItem → Prop
  | .item i => fullGenItem i
  | .externTf | .rand => True
  | .region l | .block _ _ l _ => fullGItems l
def fullGItems : List GItem → Prop
  | [] => True
  | g :: l => fullGItem g ∧ fullGItems l
def fullCaseGItem : CaseGItem → Prop
  | .dflt g => fullGItem g
  | .exprs l g => fullExps l ∧ fullGItem g
def fullCaseGItems : List CaseGItem → Prop
  | [] => True
  | i :: l => fullCaseGItem i ∧ fullCaseGItems l
end

def fullHdrPorts : HdrPorts → Prop
  | .none | .star => True
  | .list l => fullPortList l

/-- The first port of a list of ANSI ports has a direction. -/
def firstDir : HdrPorts → Prop
  | .list (.ansi (.decl (.dir _ _) _ _ _ :: _)) => True
  | .list (.ansi (.expl (some _) _ _ :: _)) => True
  | .list (.ansi (_ :: _)) => False
  | _ => True

mutual
def fullMod : Mod → Prop
  | .mk ext h ps l => fullOpt fullParamPorts h.params ∧ fullHdrPorts ps ∧ (ext = true → firstDir ps) ∧ fullModItems l
def fullModItems : List ModItem → Prop
  | [] => True
  | i :: l => fullModItem i ∧ fullModItems l
def fullModItem : ModItem → Prop
  | .region l => fullGItems l
  | .item i => fullGenItem i
  | .module_ m => fullMod m
  | .port d => fullNonansiDecl d
  | .other => True
end

def fullDesc : Desc → Prop
  | .module_ m => fullMod m
  | .other => True

end Verif.Spec.Sv
