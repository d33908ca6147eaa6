import Verif.SvModLemmas
import Verif.Props.SvStm2
import Verif.Props.SvList
/-!
# Items of SystemVerilog modules: the supported fragment, and the induction over the parse tree
-/
namespace Verif.Sv
open Verif Verif.Spec.Sv

/-! ## The supported fragment: instances, gates, nets -/

/-- A connected value: any supported expression but `null`. -/
def okConnVal (e : Exp) : Prop := okExp e ∧ isNullExp e = false

/-- No `.a` without parentheses. -/
def okNamedConn : NamedConn → Prop
  | .star => True
  | .name _ => False
  | .empty i => okIdent i
  | .val i e => okIdent i ∧ okConnVal e

def okConns : Conns → Prop
  | .ordered l => ∀ e, some e ∈ l → okConnVal e
  | .named l => ∀ c ∈ l, okNamedConn c

def okHierInst (h : HierInst) : Prop := okIdent h.name ∧ (∀ r ∈ h.dims, okARange r) ∧ okConns h.conns

/-- The module name is no escaped identifier. -/
def okInst (m : ModInst) : Prop :=
  m.module_.esc = false ∧ isKw m.module_.text = false ∧ gateOf m.module_.text = none ∧ okPVA m.params ∧ ∀ h ∈ m.insts, okHierInst h

/-- The name of a gate has no dimensions. -/
def okGateName : Option (Ident × List ARange) → Prop
  | none => True
  | some (i, dims) => okIdent i ∧ dims = [] ∧ identStr i ≠ .ok [' ']

/-- `buf` and `not` have one output; no other gates. -/
def okGate : Gate → Prop
  | .nOut _ l => ∀ g ∈ l, okExp g.inp ∧ ∃ o, g.outs = [o] ∧ okLVal o
  | .nIn _ l => ∀ g ∈ l, okGateName g.name ∧ okLVal g.out ∧ okExps g.ins
  | .other => False

/-- `noDims`: no dimensions that could be taken for the width of the type follow. -/
def okTypeI (kw : Str) (t : Option DTypeOrImpl) (noDims : Bool) : Prop :=
  match t with
  | none => kw = c! "wire" ∧ noDims = true
  | some (.type t) => kw = c! "wire" ∧ okDType t ∧ (closedT t = true ∨ noDims = true)
  | some (.impl ⟨_, []⟩) => kw = c! "wire" ∧ noDims = true
  | some (.impl ⟨_, some r :: l⟩) => isKw kw = true ∧ okARange r ∧ (∀ r, some r ∈ l → okARange r) ∧
      (closedI t = true ∨ noDims = true)
  | some (.impl ⟨_, none :: _⟩) => False

/-- Nets: without strength; kinds of nets other than `wire` only with a range and without type. -/
def okNet : NetDecl → Prop
  | .interconnect => False
  | .net kw extra t l => extra = false ∧ okTypeI kw t true ∧
      ∀ n ∈ l, okIdent n.name ∧ (∀ r ∈ n.dims, okARange r) ∧ okOptExp n.value ∧ (t = none → n.dims = [])
  | .user _ _ => False

/-- Arguments declared by items: without `var` and `const ref`. -/
def okTfPortDecl (d : TfPortDecl) : Prop :=
  d.var = false ∧ d.dir ≠ .constRef ∧ d.items ≠ [] ∧
    ∀ v ∈ d.items, okIdent v.name ∧ okVDims v.dims ∧ okOptExp v.value ∧ okTypeI (c! "wire") d.type v.dims.isEmpty

def okTfItem : TfItem → Prop
  | .block d => okBlockDecl d
  | .port d => okTfPortDecl d

/-- Arguments in parentheses: named inputs; `auto`: the argument before has no type. The type of the argument before is not inherited. -/
def okTfPorts (auto : Bool) : List TfPort → Prop
  | [] => True
  | p :: l => (p.dir = none ∨ p.dir = some (.dir .input)) ∧ (∃ i, p.name = some i ∧ okIdent i) ∧ okVDims p.dims ∧ okOptExp p.value ∧
      okTypeI (c! "wire") p.type p.dims.isEmpty ∧ (p.dir = none → p.type = none → auto = true) ∧ okTfPorts p.type.isNone l

/-- The names of the arguments are not declared again. -/
def okTfHead : TfHead → Prop
  | .items l => (∀ i ∈ l, okTfItem i) ∧ apart (l.flatMap tfItemNames) (l.flatMap tfPortNames)
  | .ports l ds => okTfPorts true l ∧ ∀ d ∈ ds, okBlockDecl d

def okFnRet : FnRet → Prop
  | .none => True
  | .void => True
  | .type t => okDType t
  | .impl t => okTypeI (c! "wire") (some (.impl t)) true

/-- No scope in front of the name. -/
def okTfDecl (d : TfDecl) : Prop := d.prefix_ = none ∧ okIdent d.name ∧ okTfHead d.head ∧ okStmNs d.body

def okTf : TfDef → Prop
  | .task _ d => okTfDecl d
  | .function _ ret d => okFnRet ret ∧ okTfDecl d

variable {V S M : Type} {A : Alg V} {B : SAlg V S} {N : MAlg V S M} {leaf : Expr → V}

/-! ## Instances -/

theorem dims_eval (hA : Agrees A leaf) (l : List ARange) : ∀ (e : Expr) (v : V), (∀ r ∈ l, okARange r) → astEval A leaf e = some v →
    ∃ r, visitUnpackedDims e l = .ok r ∧ astEval A leaf r = some (evDims A v l) := by
  induction l with
  | nil => intro e v _ h; exact ⟨e, rfl, h⟩
  | cons r l ih =>
    intro e v ho h
    obtain ⟨r', h1, h2⟩ := arange_eval hA r (ho r (.head _))
    obtain ⟨x, h3, h4⟩ := ih (.mkBin none e .INDEX r') (A.index v (evARange A r)) (fun x hx => ho x (.tail _ hx))
      (by rw [astEval_bin h h2]; rfl)
    exact ⟨x, by simp only [visitUnpackedDims, h1, bind, Except.bind]; exact h3, h4⟩

theorem astConn_pos {e : Expr} {v : V} (ht : top e = true) (h : astEval A leaf e = some v) : astConn A leaf e = some (.pos (some v)) := by
  unfold astConn
  split
  · cases ht
  · cases ht
  · cases ht
  · cases ht
  · rw [h]; rfl

theorem astConn_named {s : Str} {n : V} {e : Expr} {v : V} (hs : astEval A leaf (.id none s) = some n) (ht : top e = true)
    (h : astEval A leaf e = some v) : astConn A leaf (.mkBin none (.id none s) .MAP_ASSOCIATION e) = some (.named n (some v)) := by
  have : Expr.mkBin none (.id none s) .MAP_ASSOCIATION e = .op none .MAP_ASSOCIATION [.id none s, e] := by
    simp only [Expr.mkBin, astEval_push h, astEval_push hs, List.cons_append, List.nil_append]
  rw [this]
  unfold astConn
  split
  · rename_i h'; injection h' with _ _ h'; injection h' with h' _; cases h'
  · rename_i h'; injection h' with _ _ h'; injection h' with _ h'; injection h' with h' _; rw [h'] at ht; cases ht
  · rename_i h'
    injection h' with _ _ h'; injection h' with h1 h'; injection h' with h2 _
    subst h1 h2
    rw [hs, h]; rfl
  · rename_i h'; cases h'
  · rename_i h1 h2 h3 h4; exact (h3 _ _ _ rfl).elim

theorem connVal_eval (hA : Agrees A leaf) (e : Exp) (h : okConnVal e) :
    ∃ r, visitExp e = .ok r ∧ astEval A leaf r = some (evExp A e) ∧ top r = true := by
  obtain ⟨r, h1, h2⟩ := exp_eval hA e h.1
  exact ⟨r, h1, h2, top_exp hA e r h1 h.1 h.2⟩

theorem orderedConns_eval (hA : Agrees A leaf) (l : List (Option Exp)) (h : ∀ e, some e ∈ l → okConnVal e) :
    ∃ r, visitOrderedConns l = .ok r ∧ astConns A leaf r = some (l.map fun e => .pos (e.map (evExp A))) := by
  induction l with
  | nil => exact ⟨[], rfl, rfl⟩
  | cons x l ih =>
    obtain ⟨r, h1, h2⟩ := ih fun e he => h e (.tail _ he)
    cases x with
    | none =>
      refine ⟨.symb none .NULL :: r, by simp only [visitOrderedConns, h1, bind, Except.bind, pure, Except.pure], ?_⟩
      simp only [astConns, astConn, h2, Option.bind_eq_bind, Option.bind_some, pure, List.map_cons, Option.map_none]
    | some e =>
      obtain ⟨e', h3, h4, h5⟩ := connVal_eval hA e (h e (.head _))
      refine ⟨e' :: r, by simp only [visitOrderedConns, h3, h1, bind, Except.bind, pure, Except.pure], ?_⟩
      simp only [astConns, astConn_pos h5 h4, h2, Option.bind_eq_bind, Option.bind_some, pure, List.map_cons, Option.map_some]

theorem namedConn_eval (hA : Agrees A leaf) (c : NamedConn) (h : okNamedConn c) :
    ∃ r, visitNamedConn c = .ok r ∧ astConn A leaf r = some (evNamedConn A c) := by
  match c, h with
  | .star, _ => exact ⟨_, rfl, rfl⟩
  | .empty i, h =>
    obtain ⟨s, h1, h2⟩ := ident_leaf hA h
    refine ⟨_, by simp only [visitNamedConn, visitIdent, h1, bind, Except.bind, pure, Except.pure]; rfl, ?_⟩
    simp only [Expr.mkBin, Expr.push, List.cons_append, List.nil_append, astConn, astEval, h2, Option.map_some, evNamedConn]
  | .val i e, h =>
    obtain ⟨s, h1, h2⟩ := ident_leaf hA h.1
    obtain ⟨e', h3, h4, h5⟩ := connVal_eval hA e h.2
    refine ⟨_, by simp only [visitNamedConn, visitIdent, h1, h3, bind, Except.bind, pure, Except.pure]; rfl, ?_⟩
    exact astConn_named (by simp only [astEval, h2]) h5 h4

theorem namedConns_eval (hA : Agrees A leaf) (l : List NamedConn) (h : ∀ c ∈ l, okNamedConn c) :
    ∃ r, visitNamedConns l = .ok r ∧ astConns A leaf r = some (l.map (evNamedConn A)) := by
  induction l with
  | nil => exact ⟨[], rfl, rfl⟩
  | cons x l ih =>
    obtain ⟨r, h1, h2⟩ := ih fun e he => h e (.tail _ he)
    obtain ⟨e, h3, h4⟩ := namedConn_eval hA x (h x (.head _))
    refine ⟨e :: r, by simp only [visitNamedConns, h3, h1, bind, Except.bind, pure, Except.pure], ?_⟩
    simp only [astConns, h4, h2, Option.bind_eq_bind, Option.bind_some, pure, List.map_cons]

theorem conns_eval (hA : Agrees A leaf) (c : Conns) (h : okConns c) :
    ∃ r, visitConns c = .ok r ∧ astConns A leaf r = some (evConns A c) := by
  cases c with
  | ordered l => exact orderedConns_eval hA l h
  | named l => exact namedConns_eval hA l h

theorem paramMap_eval (hA : Agrees A leaf) (p : PVA) (h : okPVA p) :
    ∃ r, visitParamMap p = .ok r ∧ astEvals A leaf r = some (evParamMap A p) := by
  cases p with
  | none => exact ⟨[], rfl, by simp only [astEvals, evParamMap]⟩
  | ordered l => simp only [okPVA] at h; exact pexprs_eval hA l h
  | named l => simp only [okPVA] at h; exact namedPs_eval hA l h

theorem hierInst_eval (hA : Agrees A leaf) (m : Ident) (he : m.esc = false) (hk : isKw m.text = false) (hg : gateOf m.text = none)
    (gm : List Expr) (vg : List V) (hgm : astEvals A leaf gm = some vg) (h : HierInst) (ho : okHierInst h) :
    ∃ o, visitHierInst m.text gm h = .ok o ∧
      astItem A B N leaf o = some (N.inst (evDims A (A.ident h.name) h.dims) (A.ident m) vg (evConns A h.conns)) := by
  obtain ⟨n, h1, h2⟩ := ident_eval hA ho.1
  obtain ⟨d, h3, h4⟩ := dims_eval hA h.dims n _ ho.2.1 h2
  obtain ⟨c, h5, h6⟩ := conns_eval hA h.conns ho.2.2
  refine ⟨_, by simp only [visitHierInst, h1, h3, h5, bind, Except.bind, pure, Except.pure]; rfl, ?_⟩
  simp only [astItem, astInst, hg, h4, hgm, h6, Option.bind_eq_bind, Option.bind_some, pure,
    hA.ident m m.text (by simp only [identStr, he, Bool.false_eq_true, if_false]) hk]

theorem hierInstsRest_eval (hA : Agrees A leaf) (m : Ident) (he : m.esc = false) (hk : isKw m.text = false) (hg : gateOf m.text = none)
    (gm : List Expr) (vg : List V) (hgm : astEvals A leaf gm = some vg) (hc : cloneList gm = .ok gm) (l : List HierInst)
    (ho : ∀ h ∈ l, okHierInst h) :
    ∃ r, visitHierInstsRest m.text gm l = .ok r ∧ astItems A B N leaf r =
      some (l.map fun h => N.inst (evDims A (A.ident h.name) h.dims) (A.ident m) vg (evConns A h.conns)) := by
  induction l with
  | nil => exact ⟨[], rfl, by simp only [astItems, List.map_nil]⟩
  | cons h l ih =>
    obtain ⟨r, h1, h2⟩ := ih fun x hx => ho x (.tail _ hx)
    obtain ⟨o, h3, h4⟩ := hierInst_eval (B := B) (N := N) hA m he hk hg gm vg hgm h (ho h (.head _))
    refine ⟨o :: r, by simp only [visitHierInstsRest, hc, h3, h1, bind, Except.bind, pure, Except.pure], ?_⟩
    simp only [astItems, h4, h2, Option.bind_eq_bind, Option.bind_some, pure, List.map_cons]

theorem modInst_eval (hA : Agrees A leaf) (m : ModInst) (h : okInst m) :
    ∃ r, visitModInst m = .ok r ∧ astItems A B N leaf r = some (evInst A N m) := by
  obtain ⟨mod, params, insts⟩ := m
  obtain ⟨he, hk, hg, hp, hi⟩ := h
  obtain ⟨gm, h1, h2⟩ := paramMap_eval hA params hp
  have hc : cloneList gm = .ok gm := clones_of_eval gm _ (plains_paramMap params gm h1) h2
  cases insts with
  | nil => exact ⟨[], by simp only [visitModInst, h1, bind, Except.bind, pure, Except.pure], by simp only [astItems, evInst, List.map_nil]⟩
  | cons x l =>
    obtain ⟨o, h3, h4⟩ := hierInst_eval (B := B) (N := N) hA mod he hk hg gm _ h2 x (hi x (.head _))
    obtain ⟨r, h5, h6⟩ := hierInstsRest_eval (B := B) (N := N) hA mod he hk hg gm _ h2 hc l fun y hy => hi y (.tail _ hy)
    refine ⟨o :: r, by simp only [visitModInst, h1, h3, h5, bind, Except.bind, pure, Except.pure], ?_⟩
    simp only [astItems, h4, h6, Option.bind_eq_bind, Option.bind_some, pure, evInst, List.map_cons]

/-! ## Gates -/

theorem gateOf_name (g : NGate) : gateOf g.name = some g := by cases g <;> decide +kernel

theorem evExps_eq (l : List Exp) : evExps A l = l.map (evExp A) := by
  induction l with
  | nil => simp only [evExps, List.map_nil]
  | cons e l ih => simp only [evExps, List.map_cons, ih]

theorem nInInst_eval (hA : Agrees A leaf) (g : NGate) (i : NInInst) (h : okGateName i.name ∧ okLVal i.out ∧ okExps i.ins) :
    ∃ o, visitNInInst g i = .ok o ∧ astItem A B N leaf o = some (N.gate g (evGateName A i.name) (evLVal A i.out) (i.ins.map (evExp A))) := by
  obtain ⟨name, out, ins⟩ := i
  obtain ⟨hn, ho, hin⟩ := h
  obtain ⟨o, h1, h2⟩ := lval_eval hA out ho
  obtain ⟨l, h3, h4, _⟩ := exps_eval hA ins hin
  rw [evExps_eq] at h4
  match name, hn with
  | none, _ =>
    refine ⟨_, by simp only [visitNInInst, h1, h3, bind, Except.bind, pure, Except.pure]; rfl, ?_⟩
    simp only [astItem, astInst, gateOf_name, astGateName, h2, h4, Option.bind_eq_bind, Option.bind_some, pure, evGateName]
  | some (i, dims), hn =>
    obtain ⟨hi, rfl, hb⟩ := hn
    obtain ⟨s, h5, h6⟩ := ident_leaf hA hi
    refine ⟨_, by simp only [visitNInInst, visitIdent, h1, h3, h5, bind, Except.bind, pure, Except.pure]; rfl, ?_⟩
    have hs : astGateName A leaf (.id none s) = some (some (A.ident i)) := by
      unfold astGateName
      split
      · rename_i h'; injection h' with _ h'; subst h'; exact absurd h5 hb
      · simp only [astEval, h6, Option.map_some]
    simp only [astItem, astInst, gateOf_name, hs, h2, h4, Option.bind_eq_bind, Option.bind_some, pure, evGateName, evDims]

theorem nOutInst_eval (hA : Agrees A leaf) (neg : Bool) (i : NOutInst) (h : okExp i.inp ∧ ∃ o, i.outs = [o] ∧ okLVal o) :
    ∃ o, visitNOutInst neg i = .ok o ∧ astItems A B N leaf [o] = some (evNOut A N neg i) := by
  obtain ⟨hi, x, hx, ho⟩ := h
  obtain ⟨o, h1, h2⟩ := lval_eval hA x ho
  obtain ⟨e, h3, h4⟩ := exp_eval hA i.inp hi
  have h5 : astEval A leaf (if neg then .mkUn none .NEG e else e) = some (if neg then A.un "~" (evExp A i.inp) else evExp A i.inp) := by
    cases neg with
    | false => exact h4
    | true => simp only [if_true, astEval_un h4]; rfl
  refine ⟨.assign {} o (if neg then .mkUn none .NEG e else e) .null none false, ?_, ?_⟩
  · simp only [visitNOutInst, hx, visitLVals, h1, h3, bind, Except.bind, pure, Except.pure]
    exact mkAssign_eq h2 h5 _ _ _
  · simp only [astItems, astItem, h2, h5, Option.bind_eq_bind, Option.bind_some, pure, evNOut, hx, List.map_cons, List.map_nil]

theorem astItems_append (a b : List Obj) (va vb : List M) (ha : astItems A B N leaf a = some va) (hb : astItems A B N leaf b = some vb) :
    astItems A B N leaf (a ++ b) = some (va ++ vb) := by
  induction a generalizing va with
  | nil => simp only [astItems, Option.some.injEq] at ha; subst ha; exact hb
  | cons e l ih =>
    simp only [astItems] at ha
    cases he : astItem A B N leaf e with
    | none => simp [he] at ha
    | some x =>
      cases hl : astItems A B N leaf l with
      | none => simp [he, hl] at ha
      | some y =>
        simp only [he, hl, Option.bind_eq_bind, Option.bind_some, pure, Option.some.injEq] at ha
        subst ha
        simp only [List.cons_append, astItems, he, ih y hl, Option.bind_eq_bind, Option.bind_some, pure]

theorem gate_eval (hA : Agrees A leaf) (g : Gate) (h : okGate g) :
    ∃ r, visitGate g = .ok r ∧ astItems A B N leaf r = some (evGate A N g) := by
  match g, h with
  | .nOut neg l, h =>
    simp only [visitGate, evGate, okGate] at h ⊢
    induction l with
    | nil => exact ⟨[], rfl, by simp only [astItems, List.flatMap_nil]⟩
    | cons x l ih =>
      obtain ⟨r, h1, h2⟩ := ih fun y hy => h y (.tail _ hy)
      obtain ⟨o, h3, h4⟩ := nOutInst_eval (B := B) (N := N) hA neg x (h x (.head _))
      refine ⟨o :: r, by simp only [visitNOutInsts, h3, h1, bind, Except.bind, pure, Except.pure], ?_⟩
      rw [List.flatMap_cons, ← astItems_append [o] r _ _ h4 h2]; rfl
  | .nIn g l, h =>
    simp only [visitGate, evGate, okGate] at h ⊢
    induction l with
    | nil => exact ⟨[], rfl, by simp only [astItems, List.map_nil]⟩
    | cons x l ih =>
      obtain ⟨r, h1, h2⟩ := ih fun y hy => h y (.tail _ hy)
      obtain ⟨o, h3, h4⟩ := nInInst_eval (B := B) (N := N) hA g x (h x (.head _))
      refine ⟨o :: r, by simp only [visitNInInsts, h3, h1, bind, Except.bind, pure, Except.pure], ?_⟩
      simp only [astItems, h4, h2, Option.bind_eq_bind, Option.bind_some, pure, List.map_cons]

/-! ## Types of nets and arguments, nets -/

theorem packedDims_eval (hA : Agrees A leaf) (l : List (Option ARange)) : ∀ (t : Expr) (v : V), (∀ r, some r ∈ l → okARange r) →
    astEval A leaf t = some v → ∃ e, visitPackedDims t l = .ok e ∧ astEval A leaf e = some (evPacked A v l) := by
  induction l with
  | nil => intro t v _ h; exact ⟨t, rfl, h⟩
  | cons d l ih =>
    intro t v ho h
    cases d with
    | none =>
      obtain ⟨e, h1, h2⟩ := ih (mkDim t .null) (A.un "[]" v) (fun r hr => ho r (.tail _ hr)) (by
        have : mkDim t .null = .mkUn none .INDEX t := rfl
        rw [this, astEval_un h]; rfl)
      exact ⟨e, by simp only [visitPackedDims, visitPackedDim, bind, Except.bind]; exact h1, h2⟩
    | some r =>
      obtain ⟨r', h3, h4⟩ := arange_eval hA r (ho r (.head _))
      obtain ⟨e, h1, h2⟩ := ih (mkDim t r') (A.index v (evARange A r)) (fun r hr => ho r (.tail _ hr)) (mkDim_eval h h4)
      exact ⟨e, by simp only [visitPackedDims, visitPackedDim, h3, bind, Except.bind]; exact h1, h2⟩

theorem mkWireT_kw (nt w : Expr) (s : Sign) (kw : Str) (h : nt = .id none kw ∨ nt = .null ∧ kw = c! "wire") :
    mkWireT nt w s = mkWireT (.id none kw) w s := by
  rcases h with rfl | ⟨rfl, rfl⟩ <;> rfl

/-- The type `t` of nets of the kind `kw`. -/
theorem typeI_eval (hA : Agrees A leaf) (nt : Expr) (kw : Str) (hn : nt = .id none kw ∨ nt = .null ∧ kw = c! "wire")
    (t : Option DTypeOrImpl) (b : Bool) (h : okTypeI kw t b) :
    ∃ e, visitDTypeOrImpl nt t = .ok e ∧ e.clone = .ok e ∧ astType A B leaf e = some (evTypeI A B kw t) ∧
      (t ≠ none → astEval A leaf e = some (evTypeI A B kw t)) ∧ (b = false → t ≠ none ∧ isOpenWire e = false) := by
  match t, h with
  | none, h =>
    refine ⟨_, rfl, rfl, ?_, fun h => absurd rfl h, fun hb => by simp [okTypeI, hb] at h⟩
    simp only [astType, evTypeI, h.1, if_true]
  | some (.type t), h =>
    obtain ⟨hk, h, hc⟩ := h
    obtain ⟨e, h1, h2⟩ := dtype_eval hA t h
    simp only [evTypeI, hk, if_true]
    refine ⟨e, h1, clone_of_eval e _ (plain_dtype t e h1) h2, astType_some h2, fun _ => h2, fun hb => ⟨by simp, ?_⟩⟩
    rcases hc with h | h
    · exact closed_dtype t e h h1
    · simp [hb] at h
  | some (.impl ⟨s, []⟩), h =>
    obtain ⟨hk, hb⟩ := h
    subst hk
    have h2 : astEval A leaf (mkWireT .null (.symb none .NULL) s) = some (A.param (A.kw (c! "wire")) [A.nul, evSign A s]) := by
      rw [mkWireT_kw .null _ s (c! "wire") (.inr ⟨rfl, rfl⟩)]
      exact wire_eval hA (by decide +kernel) (by simp only [astEval]) s
    refine ⟨_, rfl, ?_, astType_some h2, fun _ => h2, fun hb' => by simp [hb'] at hb⟩
    exact clone_of_eval _ _ (plain_mkWireT _ _ s rfl rfl) h2
  | some (.impl ⟨s, some r :: l⟩), h =>
    obtain ⟨hk, hr, hl, hc⟩ := h
    obtain ⟨r', h1, h2⟩ := arange_eval hA r hr
    have hw := wire_eval hA hk h2 s
    obtain ⟨e, h3, h4⟩ := packedDims_eval hA l _ _ hl hw
    have hr' := ne_null h2
    have h5 : visitDTypeOrImpl nt (some (.impl ⟨s, some r :: l⟩)) = .ok e := by
      simp only [visitDTypeOrImpl, visitImplType, visitPackedDim, h1, bind, Except.bind]
      rw [← h3, ← mkWireT_kw nt r' s kw hn]
    refine ⟨e, h5, clone_of_eval e _ ?_ h4, astType_some h4, fun _ => h4, fun hb => ⟨by simp, ?_⟩⟩
    · exact plain_packedDims l _ e (plain_mkWireT _ _ s rfl (plain_arange r r' h1)) h3
    · rcases hc with h | h
      · exact closed_dtypeOrImpl nt _ e h h5
      · simp [hb] at h

theorem optExp_eval (hA : Agrees A leaf) (x : Option Exp) (h : okOptExp x) :
    ∃ e, visitOptExp x = .ok e ∧ astOpt A leaf e = some (x.map (evExp A)) := by
  cases x with
  | none => exact ⟨.null, rfl, rfl⟩
  | some e =>
    obtain ⟨e', h1, h2⟩ := exp_eval hA e h
    exact ⟨e', h1, astOpt_some h2⟩

/-- Objects that are declarations. -/
def allIds (l : List Obj) : Prop := ∀ o ∈ l, ∃ d, o = .id d

theorem ids_items (l : List Obj) (hl : allIds l) : ∀ vs, astStms A B leaf l = some vs → astItems A B N leaf l = some (vs.map N.stm) := by
  induction l with
  | nil => intro vs h; simp only [astStms, Option.some.injEq] at h; subst h; simp only [astItems, List.map_nil]
  | cons o l ih =>
    intro vs h
    obtain ⟨d, rfl⟩ := hl o (.head _)
    simp only [astStms, astStm] at h
    cases hd : astDecl A B leaf d with
    | none => simp [hd] at h
    | some x =>
      cases hl' : astStms A B leaf l with
      | none => simp [hd, hl'] at h
      | some y =>
        simp only [hd, hl', Option.bind_eq_bind, Option.bind_some, pure, Option.some.injEq] at h
        subst h
        simp only [astItems, astItem, hd, ih (fun o ho => hl o (.tail _ ho)) y hl', Option.map_some, Option.bind_eq_bind, Option.bind_some, pure,
          List.map_cons]

theorem allIds_map (l : List IdDef) : allIds (l.map .id) := by
  intro o ho
  obtain ⟨d, _, rfl⟩ := List.mem_map.1 ho
  exact ⟨d, rfl⟩

theorem netAssign_eval (hA : Agrees A leaf) (t : Expr) (v : V) (b : Bool) (ht : astType A B leaf t = some v)
    (hb : b = false → astEval A leaf t = some v) (n : NetAssign)
    (h : okIdent n.name ∧ (∀ r ∈ n.dims, okARange r) ∧ okOptExp n.value ∧ (b = true → n.dims = [])) :
    ∃ d, visitNetAssign t n = .ok d ∧ astDecl A B leaf d = some (evNet A B v n) := by
  obtain ⟨h1, h2, h3, h4⟩ := h
  obtain ⟨s, h5, h6⟩ := ident_leaf hA h1
  obtain ⟨e, h7, h8⟩ := optExp_eval hA n.value h3
  have h9 : ∃ r, visitUnpackedDims t n.dims = .ok r ∧ astType A B leaf r = some (evDims A v n.dims) := by
    cases b with
    | true => rw [h4 rfl]; exact ⟨t, rfl, ht⟩
    | false =>
      obtain ⟨r, h9, h10⟩ := dims_eval hA n.dims t v h2 (hb rfl)
      exact ⟨r, h9, astType_some h10⟩
  obtain ⟨r, h9, h10⟩ := h9
  refine ⟨_, by simp only [visitNetAssign, h5, h7, h9, bind, Except.bind, pure, Except.pure]; rfl, ?_⟩
  simp only [astDecl, h10, h8, h6, Option.bind_eq_bind, Option.bind_some, pure, evNet]

theorem netAssignsRest_eval (hA : Agrees A leaf) (t : Expr) (v : V) (b : Bool) (hc : t.clone = .ok t) (ht : astType A B leaf t = some v)
    (hb : b = false → astEval A leaf t = some v) (l : List NetAssign)
    (h : ∀ n ∈ l, okIdent n.name ∧ (∀ r ∈ n.dims, okARange r) ∧ okOptExp n.value ∧ (b = true → n.dims = [])) :
    ∃ r, visitNetAssignsRest t l = .ok r ∧ astStms A B leaf (r.map .id) = some (l.map (evNet A B v)) := by
  induction l with
  | nil => exact ⟨[], rfl, by simp only [List.map_nil, astStms]⟩
  | cons n l ih =>
    obtain ⟨r, h1, h2⟩ := ih fun x hx => h x (.tail _ hx)
    obtain ⟨d, h3, h4⟩ := netAssign_eval (B := B) hA t v b ht hb n (h n (.head _))
    refine ⟨d :: r, by simp only [visitNetAssignsRest, hc, h3, h1, bind, Except.bind, pure, Except.pure], ?_⟩
    simp only [List.map_cons, astStms, astStm, h4, h2, Option.bind_eq_bind, Option.bind_some, pure]

theorem net_eval (hA : Agrees A leaf) (d : NetDecl) (h : okNet d) :
    ∃ r, visitNetDecl d = .ok r ∧ astStms A B leaf (r.map .id) = some (evNetDecl A B d) := by
  match d, h with
  | .net kw extra t l, h =>
    obtain ⟨rfl, ht, hl⟩ := h
    obtain ⟨e, h1, h2, h3, h4, _⟩ := typeI_eval (B := B) hA (.id none kw) kw (.inl rfl) t true ht
    have hb : t.isNone = false → astEval A leaf e = some (evTypeI A B kw t) := fun h => h4 (by rintro rfl; cases h)
    have hl' : ∀ n ∈ l, okIdent n.name ∧ (∀ r ∈ n.dims, okARange r) ∧ okOptExp n.value ∧ (t.isNone = true → n.dims = []) := by
      intro n hn
      obtain ⟨a, b, c, d⟩ := hl n hn
      exact ⟨a, b, c, fun h => d (by cases t with | none => rfl | some _ => cases h)⟩
    cases l with
    | nil =>
      exact ⟨[], by simp only [visitNetDecl, Bool.false_eq_true, if_false, h1, visitNetAssigns, bind, Except.bind],
        by simp only [List.map_nil, astStms, evNetDecl]⟩
    | cons n l =>
      obtain ⟨d, h5, h6⟩ := netAssign_eval (B := B) hA e _ t.isNone h3 hb n (hl' n (.head _))
      obtain ⟨r, h7, h8⟩ := netAssignsRest_eval (B := B) hA e _ t.isNone h2 h3 hb l fun x hx => hl' x (.tail _ hx)
      refine ⟨d :: r, by simp only [visitNetDecl, Bool.false_eq_true, if_false, h1, visitNetAssigns, h5, h7, bind, Except.bind, pure, Except.pure], ?_⟩
      simp only [List.map_cons, astStms, astStm, h6, h8, Option.bind_eq_bind, Option.bind_some, pure, evNetDecl]

/-! ## Names of declarations -/

theorem varDecls_names (e : Expr) (l : List VarDecl) : ∀ r, visitVarDecls e l = .ok r → ∀ d ∈ r, ∃ i ∈ l.map (·.name), identStr i = .ok d.name := by
  induction l with
  | nil => intro r h; simp only [visitVarDecls, Except.ok.injEq] at h; subst h; intro d hd; cases hd
  | cons v l ih =>
    intro r h
    simp only [visitVarDecls, bind_ok, pure_ok] at h
    obtain ⟨n, hn, _, _, _, _, _, _, r', hr, rfl⟩ := h
    intro d hd
    cases hd with
    | head => exact ⟨v.name, by simp, hn⟩
    | tail _ hd =>
      obtain ⟨i, hi, h⟩ := ih r' hr d hd
      exact ⟨i, by simp only [List.map_cons]; exact .tail _ hi, h⟩

theorem forall₂_mem {α β : Type} {R : α → β → Prop} {l : List α} {l' : List β} (h : List.Forall₂ R l l') : ∀ b ∈ l', ∃ a ∈ l, R a b := by
  induction h with
  | nil => intro b hb; cases hb
  | cons hr _ ih =>
    intro b hb
    cases hb with
    | head => exact ⟨_, .head _, hr⟩
    | tail _ hb =>
      obtain ⟨a, ha, h⟩ := ih b hb
      exact ⟨a, .tail _ ha, h⟩

theorem paramDecl_mem (d : ParamDecl) (r : List IdDef) (h : visitParamDecl d = .ok r) :
    ∀ x ∈ r, ∃ i ∈ paramNames d, identStr i = .ok x.name := by
  have := forall₂_mem (paramDecl_names d r h)
  cases d <;> exact this

theorem localparam_mem (d : ParamDecl) (r : List IdDef) (h : visitLocalparam d = .ok r) :
    ∀ x ∈ r, ∃ i ∈ paramNames d, identStr i = .ok x.name := by
  have := forall₂_mem (localparam_names d r h).1
  cases d <;> exact this

/-- Objects that are declarations are declarations of these names. -/
def declares (l : List Obj) (names : List Ident) : Prop := ∀ o ∈ l, ∀ d, o.idDef? = some d → ∃ i ∈ names, identStr i = .ok d.name

theorem declares_ids (l : List IdDef) (names : List Ident) (h : ∀ d ∈ l, ∃ i ∈ names, identStr i = .ok d.name) : declares (l.map .id) names := by
  intro o ho d hd
  obtain ⟨x, hx, rfl⟩ := List.mem_map.1 ho
  simp only [Obj.idDef?, Option.some.injEq] at hd
  subst hd
  exact h x hx

theorem declares_append {a b : List Obj} {na nb : List Ident} (ha : declares a na) (hb : declares b nb) : declares (a ++ b) (na ++ nb) := by
  intro o ho d hd
  rcases List.mem_append.1 ho with h | h
  · obtain ⟨i, hi, h⟩ := ha o h d hd
    exact ⟨i, List.mem_append_left _ hi, h⟩
  · obtain ⟨i, hi, h⟩ := hb o h d hd
    exact ⟨i, List.mem_append_right _ hi, h⟩

theorem declares_none (l : List Obj) (names : List Ident) (h : ∀ o ∈ l, o.idDef? = none) : declares l names := by
  intro o ho d hd
  rw [h o ho] at hd
  cases hd

theorem dataDecl_names (d : DataDecl) (r : List Obj) (h : visitDataDecl d = .ok r) : declares r (dataNames d) := by
  cases d with
  | vars c life t l =>
    simp only [visitDataDecl, bind_ok, pure_ok] at h
    obtain ⟨e, _, r', hr, rfl⟩ := h
    intro o ho d hd
    obtain ⟨x, hx, rfl⟩ := List.mem_map.1 ho
    simp only [Obj.idDef?, Option.some.injEq] at hd
    subst hd
    exact varDecls_names e l r' hr x hx
  | type d =>
    simp only [visitDataDecl, bind_ok, pure_ok] at h
    obtain ⟨x, hx, rfl⟩ := h
    apply declares_ids [x]
    intro y hy
    simp only [List.mem_singleton] at hy
    subst hy
    refine ⟨_, .head _, ?_⟩
    cases d <;> simp only [visitTypeDecl, bind_ok, pure_ok, reduceCtorEq] at hx
    · obtain ⟨_, _, _, _, _, h, rfl⟩ := hx; exact h
    · obtain ⟨_, h, rfl⟩ := hx; exact h
    · obtain ⟨_, _, _, _, _, h, rfl⟩ := hx; exact h
  | import_ l =>
    simp only [visitDataDecl, bind_ok, pure_ok] at h
    obtain ⟨x, hx, rfl⟩ := h
    apply declares_none
    intro o ho
    simp only [List.mem_singleton] at ho
    subst ho; rfl
  | nettype => simp only [visitDataDecl, Except.ok.injEq] at h; subst h; intro o ho; cases ho

theorem blockDecl_names (d : BlockDecl) (r : List Obj) (h : visitBlockDecl d = .ok r) : declares r (blockNames d) := by
  cases d with
  | data d => exact dataDecl_names d r h
  | localparam d =>
    simp only [visitBlockDecl, bind_ok, pure_ok] at h
    obtain ⟨l, hl, rfl⟩ := h
    exact declares_ids l _ (localparam_mem d l hl)
  | param d =>
    simp only [visitBlockDecl, bind_ok, pure_ok] at h
    obtain ⟨l, hl, rfl⟩ := h
    exact declares_ids l _ (paramDecl_mem d l hl)
  | let_ => simp only [visitBlockDecl, Except.ok.injEq] at h; subst h; intro o ho; cases ho

/-! ## Tasks and functions -/

theorem updPort_none (n : Str) (f : IdDef → IdDef) (l : List IdDef) (h : ∀ p ∈ l, p.name ≠ n) : updPort n f l = none := by
  induction l with
  | nil => rfl
  | cons p l ih => simp only [updPort, if_neg (h p (.head _)), ih fun x hx => h x (.tail _ hx)]

/-- No port has one of these names. -/
def freeOf (ports : List IdDef) (names : List Ident) : Prop := ∀ p ∈ ports, ∀ i ∈ names, identStr i ≠ .ok p.name

theorem mergeTf_free (ports : List IdDef) (l : List Obj) (names : List Ident) (hf : freeOf ports names) (hd : declares l names) :
    mergeTfObjs ports l = (l, ports) := by
  induction l with
  | nil => rfl
  | cons o l ih =>
    have := ih fun x hx => hd x (.tail _ hx)
    simp only [mergeTfObjs]
    split
    · rw [this]
    · rename_i d hi
      rw [updPort_none, this]
      intro p hp he
      obtain ⟨i, hi, hn⟩ := hd o (.head _) d hi
      exact hf p hp i hi (by rw [hn, he])

theorem astPorts_append (a b : List IdDef) (va vb : List (Port V)) (ha : astPorts A B leaf a = some va) (hb : astPorts A B leaf b = some vb) :
    astPorts A B leaf (a ++ b) = some (va ++ vb) := by
  induction a generalizing va with
  | nil => simp only [astPorts, Option.some.injEq] at ha; subst ha; exact hb
  | cons e l ih =>
    simp only [astPorts] at ha
    cases he : astPort A B leaf e with
    | none => simp [he] at ha
    | some x =>
      cases hl : astPorts A B leaf l with
      | none => simp [he, hl] at ha
      | some y =>
        simp only [he, hl, Option.bind_eq_bind, Option.bind_some, pure, Option.some.injEq] at ha
        subst ha
        simp only [List.cons_append, astPorts, he, ih y hl, Option.bind_eq_bind, Option.bind_some, pure]

/-- A type with dimensions after the name. -/
theorem typeIDims_eval (hA : Agrees A leaf) (nt : Expr) (kw : Str) (hn : nt = .id none kw ∨ nt = .null ∧ kw = c! "wire")
    (t : Option DTypeOrImpl) (e : Expr) (he : visitDTypeOrImpl nt t = .ok e) (dims : List VDim) (h : okTypeI kw t dims.isEmpty)
    (hd : okVDims dims) : ∃ ty, applyVDims e dims = .ok ty ∧ afterDims e dims = .ok e ∧ e.clone = .ok e ∧
      astType A B leaf ty = some (evVDims A (evTypeI A B kw t) dims) := by
  obtain ⟨e', h1, h2, h3, h4, h5⟩ := typeI_eval (B := B) hA nt kw hn t _ h
  rw [he] at h1
  obtain rfl := Except.ok.inj h1
  cases dims with
  | nil => exact ⟨e, by simp only [applyVDims, visitVDims], rfl, h2, by simpa only [evVDims] using h3⟩
  | cons d l =>
    obtain ⟨h6, h7⟩ := h5 rfl
    obtain ⟨ty, h8, h9⟩ := vdims_eval hA (d :: l) hd e _ (h4 h6)
    exact ⟨ty, by rw [applyVDims, h7, h8], by simp only [afterDims, h7, Bool.false_eq_true, if_false], h2, astType_some h9⟩

theorem varId_eval (hA : Agrees A leaf) (lat : Bool) (dir : Dir) (t : Option DTypeOrImpl) (e : Expr) (he : visitDTypeOrImpl .null t = .ok e) (v : VarId)
    (h : okIdent v.name ∧ okVDims v.dims ∧ okOptExp v.value ∧ okTypeI (c! "wire") t v.dims.isEmpty) :
    ∃ d, visitVarId lat dir e v = .ok d ∧ identStr v.name = .ok d.name ∧ astPort A B leaf d =
      some ⟨dir, ⟨false, false, lat⟩, A.ident v.name, evVDims A (evTypeI A B (c! "wire") t) v.dims, v.value.map (evExp A)⟩ := by
  obtain ⟨hn, hd, hv, ht⟩ := h
  obtain ⟨ty, h1, _, _, h2⟩ := typeIDims_eval (B := B) hA .null _ (.inr ⟨rfl, rfl⟩) t e he v.dims ht hd
  obtain ⟨s, h3, h4⟩ := ident_leaf hA hn
  obtain ⟨x, h5, h6⟩ := optExp_eval hA v.value hv
  refine ⟨_, by simp only [visitVarId, h1, h3, h5, bind, Except.bind, pure, Except.pure]; rfl, h3, ?_⟩
  simp only [astPort, h2, h6, h4, Option.bind_eq_bind, Option.bind_some, pure]

theorem varIdsRest_eval (hA : Agrees A leaf) (lat : Bool) (dir : Dir) (t : Option DTypeOrImpl) (e : Expr) (he : visitDTypeOrImpl .null t = .ok e)
    (l : List VarId)
    (h : ∀ v ∈ l, okIdent v.name ∧ okVDims v.dims ∧ okOptExp v.value ∧ okTypeI (c! "wire") t v.dims.isEmpty) :
    ∃ r, visitVarIdsRest lat dir e l = .ok r ∧ (∀ d ∈ r, ∃ i ∈ l.map (·.name), identStr i = .ok d.name) ∧ astPorts A B leaf r = some (l.map fun v =>
      ⟨dir, ⟨false, false, lat⟩, A.ident v.name, evVDims A (evTypeI A B (c! "wire") t) v.dims, v.value.map (evExp A)⟩) := by
  induction l with
  | nil => exact ⟨[], rfl, (fun d hd => by cases hd), rfl⟩
  | cons v l ih =>
    obtain ⟨r, h1, h2, h3⟩ := ih fun x hx => h x (.tail _ hx)
    obtain ⟨d, h4, h5, h6⟩ := varId_eval (B := B) hA lat dir t e he v (h v (.head _))
    obtain ⟨_, _, _, h7, _⟩ := typeIDims_eval (B := B) hA .null _ (.inr ⟨rfl, rfl⟩) t e he v.dims (h v (.head _)).2.2.2 (h v (.head _)).2.1
    refine ⟨d :: r, by simp only [visitVarIdsRest, h7, h4, h1, bind, Except.bind, pure, Except.pure], ?_, ?_⟩
    · intro x hx
      cases hx with
      | head => exact ⟨v.name, by simp, h5⟩
      | tail _ hx =>
        obtain ⟨i, hi, h⟩ := h2 x hx
        exact ⟨i, by simp only [List.map_cons]; exact .tail _ hi, h⟩
    · simp only [astPorts, h6, h3, Option.bind_eq_bind, Option.bind_some, pure, List.map_cons]

theorem tfPortDecl_eval (hA : Agrees A leaf) (d : TfPortDecl) (h : okTfPortDecl d) :
    ∃ r, visitTfPortDecl d = .ok r ∧ (∀ x ∈ r, ∃ i ∈ d.items.map (·.name), identStr i = .ok x.name) ∧
      astPorts A B leaf r = some (evTfPortDecl A B d) := by
  obtain ⟨dir, var, t, items⟩ := d
  obtain ⟨hv, hc, hne, hi⟩ := h
  simp only at hv hc hne hi
  subst hv
  cases items with
  | nil => exact absurd rfl hne
  | cons v l =>
    obtain ⟨e, h0, _⟩ := typeI_eval (B := B) hA .null _ (.inr ⟨rfl, rfl⟩) t _ (hi v (.head _)).2.2.2
    obtain ⟨x, h1, h2, h3⟩ := varId_eval (B := B) hA false dir.toDir t e h0 v (hi v (.head _))
    obtain ⟨_, _, h4, _, _⟩ := typeIDims_eval (B := B) hA .null _ (.inr ⟨rfl, rfl⟩) t e h0 v.dims (hi v (.head _)).2.2.2 (hi v (.head _)).2.1
    obtain ⟨r, h5, h6, h7⟩ := varIdsRest_eval (B := B) hA false dir.toDir t e h0 l fun y hy => hi y (.tail _ hy)
    refine ⟨x :: r, ?_, ?_, ?_⟩
    · simp only [visitTfPortDecl, h0, visitVarIds, Bool.false_eq_true, if_false, h1, h4, h5, bind, Except.bind, pure, Except.pure]
    · intro y hy
      cases hy with
      | head => exact ⟨v.name, by simp, h2⟩
      | tail _ hy =>
        obtain ⟨i, hi, h⟩ := h6 y hy
        exact ⟨i, by simp only [List.map_cons]; exact .tail _ hi, h⟩
    · have hd : dir.toDir = tfDirOf dir := by
        cases dir with
        | constRef => rfl
        | dir d => cases d <;> rfl
      have hcr : isConstRef dir = false := by
        cases dir with
        | constRef => exact absurd rfl hc
        | dir d => rfl
      simp only [astPorts, h3, h7, Option.bind_eq_bind, Option.bind_some, pure, evTfPortDecl, List.map_cons, hd, hcr]

theorem tfItems_eval (hA : Agrees A leaf) (l : List TfItem) : ∀ (ports : List IdDef), (∀ i ∈ l, okTfItem i) →
    apart (l.flatMap tfItemNames) (l.flatMap tfPortNames) → freeOf ports (l.flatMap tfItemNames) →
    ∃ os ps, visitTfItems ports l = .ok (os, ports ++ ps) ∧ astStms A B leaf os = some (l.flatMap (evTfItemDecls A B)) ∧
      astPorts A B leaf ps = some (l.flatMap (evTfItemPorts A B)) := by
  induction l with
  | nil => intro ports _ _ _; exact ⟨[], [], by simp only [visitTfItems, List.append_nil], rfl, rfl⟩
  | cons i l ih =>
    intro ports ho ha hf
    have hi := ho i (.head _)
    have ho' := fun x hx => ho x (.tail i hx)
    have ha' : apart (l.flatMap tfItemNames) (l.flatMap tfPortNames) := fun a h b h' =>
      ha a (by rw [List.flatMap_cons]; exact List.mem_append_right _ h) b (by rw [List.flatMap_cons]; exact List.mem_append_right _ h')
    have hf' : freeOf ports (l.flatMap tfItemNames) := fun p hp a h =>
      hf p hp a (by rw [List.flatMap_cons]; exact List.mem_append_right _ h)
    cases i with
    | block d =>
      obtain ⟨r, h1, h2⟩ := blockDecl_eval (B := B) hA d hi
      have hm : mergeTfObjs ports r = (r, ports) :=
        mergeTf_free ports r _ (fun p hp a h => hf p hp a (by rw [List.flatMap_cons]; exact List.mem_append_left _ h)) (blockDecl_names d r h1)
      obtain ⟨os, ps, h3, h4, h5⟩ := ih ports ho' ha' hf'
      refine ⟨r ++ os, ps, by simp only [visitTfItems, h1, hm, h3, bind, Except.bind, pure, Except.pure], ?_, ?_⟩
      · rw [astStms_append r os _ _ h2 h4, List.flatMap_cons, evTfItemDecls]
      · rw [h5, List.flatMap_cons, evTfItemPorts, List.nil_append]
    | port d =>
      obtain ⟨r, h1, h2, h3⟩ := tfPortDecl_eval (B := B) hA d hi
      obtain ⟨os, ps, h4, h5, h6⟩ := ih (ports ++ r) ho' ha' (by
        intro p hp a h
        rcases List.mem_append.1 hp with hp | hp
        · exact hf' p hp a h
        · obtain ⟨j, hj, he⟩ := h2 p hp
          rw [← he]
          exact ha a (by rw [List.flatMap_cons]; exact List.mem_append_right _ h) j (by rw [List.flatMap_cons]; exact List.mem_append_left _ hj))
      refine ⟨os, r ++ ps, by simp only [visitTfItems, h1, h4, bind, Except.bind, List.append_assoc], ?_, ?_⟩
      · rw [h5, List.flatMap_cons, evTfItemDecls, List.nil_append]
      · rw [astPorts_append r ps _ _ h3 h6, List.flatMap_cons, evTfItemPorts]

theorem tfPorts_eval (hA : Agrees A leaf) (l : List TfPort) : ∀ (auto : Bool) (t : V), (auto = true → t = B.auto) → okTfPorts auto l →
    ∃ r, visitTfPorts l = .ok r ∧ astPorts A B leaf r = some (evTfPorts A B (.dir .input) t l) := by
  induction l with
  | nil => intro _ _ _ _; exact ⟨[], rfl, rfl⟩
  | cons p l ih =>
    intro auto t ht h
    obtain ⟨hd, ⟨n, hn, hni⟩, hdim, hv, hty, hin, hl⟩ := h
    obtain ⟨dir, var, ty, name, dims, value⟩ := p
    simp only at hd hn hdim hv hty hin hl
    subst hn
    obtain ⟨e, h0, _⟩ := typeI_eval (B := B) hA .null _ (.inr ⟨rfl, rfl⟩) ty _ hty
    obtain ⟨ty', h1, _, _, h2⟩ := typeIDims_eval (B := B) hA .null _ (.inr ⟨rfl, rfl⟩) ty e h0 dims hty hdim
    obtain ⟨s, h3, h4⟩ := ident_leaf hA hni
    obtain ⟨x, h5, h6⟩ := optExp_eval hA value hv
    have hauto : evTypeI A B (c! "wire") none = B.auto := by simp only [evTypeI, if_true]
    obtain ⟨r, h7, h8⟩ := ih ty.isNone (evTypeI A B (c! "wire") ty) (by
      intro h
      cases ty with
      | none => exact hauto
      | some _ => cases h) hl
    refine ⟨_, by simp only [visitTfPorts, visitTfPort, h0, h1, h3, h5, h7, bind, Except.bind, pure, Except.pure]; rfl, ?_⟩
    simp only [astPorts, astPort, h2, h6, h4, h8, Option.bind_eq_bind, Option.bind_some, pure, evTfPorts, Option.map_some, argVal]
    rcases hd with rfl | rfl
    · cases ty with
      | none =>
        have := ht (hin rfl rfl)
        subst this
        simp only [hauto]; rfl
      | some ty => rfl
    · rfl

theorem tfHead_eval (hA : Agrees A leaf) (x : TfHead) (h : okTfHead x) :
    ∃ os ps, visitTfHead x = .ok (os, ps) ∧ astStms A B leaf os = some (evTfHeadDecls A B x) ∧
      astPorts A B leaf ps = some (evTfHeadPorts A B x) := by
  cases x with
  | items l =>
    obtain ⟨os, ps, h1, h2, h3⟩ := tfItems_eval (B := B) hA l [] h.1 h.2 (fun p hp => by cases hp)
    exact ⟨os, ps, h1, h2, h3⟩
  | ports l ds =>
    obtain ⟨ps, h1, h2⟩ := tfPorts_eval (B := B) hA l true B.auto (fun _ => rfl) h.1
    obtain ⟨os, h3, h4⟩ := blockDecls_eval (B := B) hA ds h.2
    exact ⟨os, ps, by simp only [visitTfHead, h1, h3, bind, Except.bind, pure, Except.pure], h4, h2⟩

theorem fnRet_eval (hA : Agrees A leaf) (x : FnRet) (h : okFnRet x) :
    ∃ e, visitFnRet x = .ok e ∧ astType A B leaf e = some (evFnRet A B x) := by
  cases x with
  | none => exact ⟨_, rfl, rfl⟩
  | void => exact ⟨_, rfl, by rw [astType_some (kw_eval hA (by decide +kernel))]; rfl⟩
  | type t =>
    obtain ⟨e, h1, h2⟩ := dtype_eval hA t h
    exact ⟨e, h1, astType_some h2⟩
  | impl t =>
    obtain ⟨e, h1, _, h2, _⟩ := typeI_eval (B := B) hA .null _ (.inr ⟨rfl, rfl⟩) _ _ h
    exact ⟨e, h1, h2⟩

theorem tfDecl_eval (hA : Agrees A leaf) (hB : SAgrees A B) (ret : Expr) (vr : V) (hr : astType A B leaf ret = some vr) (static task : Bool)
    (d : TfDecl) (h : okTfDecl d) :
    ∃ o, visitTfDecl ret static task d = .ok o ∧ astItem A B N leaf o = some (evTfDecl A B N static task vr d) ∧
      declares [o] [d.name] := by
  obtain ⟨hp, hn, hh, hb⟩ := h
  obtain ⟨s, h1, h2⟩ := ident_leaf hA hn
  obtain ⟨os, ps, h3, h4, h5⟩ := tfHead_eval (B := B) hA d.head hh
  obtain ⟨b, h6, h7⟩ := stmNs_eval hA hB d.body hb
  refine ⟨_, by simp only [visitTfDecl, h1, h3, h6, bind, Except.bind, pure, Except.pure]; rfl, ?_, ?_⟩
  · simp only [astItem, hr, h5, astStms_append os b _ _ h4 h7, h2, Option.bind_eq_bind, Option.bind_some, pure, evTfDecl, hp, Option.map_none, dot]
  · intro o ho x hx
    simp only [List.mem_singleton] at ho
    subst ho
    simp only [Obj.idDef?, Option.some.injEq] at hx
    subst hx
    exact ⟨_, .head _, h1⟩

theorem tf_eval (hA : Agrees A leaf) (hB : SAgrees A B) (d : TfDef) (h : okTf d) :
    ∃ o, visitTfDef d = .ok o ∧ astItem A B N leaf o = some (evTf A B N d) ∧ declares [o] [tfName d] := by
  have hs : ∀ life, visitLifetime life = isStatic life := by
    intro life
    cases life with
    | none => rfl
    | some x => cases x <;> rfl
  cases d with
  | task life d =>
    simp only [visitTfDef, evTf, hs, tfName]
    exact tfDecl_eval hA hB _ _ (by rw [astType_some (kw_eval hA (by decide +kernel))]) _ _ d h
  | function life ret d =>
    obtain ⟨e, h1, h2⟩ := fnRet_eval (B := B) hA ret h.1
    simp only [visitTfDef, evTf, hs, tfName, h1, bind, Except.bind]
    exact tfDecl_eval hA hB _ _ h2 _ _ d h.2

end Verif.Sv
