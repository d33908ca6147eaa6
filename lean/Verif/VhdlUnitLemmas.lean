import Verif.VhdlStmLemmas
import Verif.Vhdl.Unit
/-!
# VHDL declarations, concurrent statements and design units: the supported fragment, and the induction over the parse tree
-/
namespace Verif.Vhdl
open Verif Verif.Spec

/-! ## The supported fragment -/

def okVars (v : VarList) : Prop := okSubInd v.type ∧ okOpt v.init

/-- Constants are generics or parameters, variables are parameters; the keyword `signal` only for ports; no `bus`; no files, types,
subprograms and packages. -/
def okIntf (c : ICtx) : Intf → Prop
  | .const v _ => okVars v ∧ c ≠ .port
  | .sig kw v _ bus => okVars v ∧ bus = false ∧ (c = .port ∨ kw = false)
  | .var v _ => okVars v ∧ c = .param
  | _ => False

def okIntfs (c : ICtx) (l : List Intf) : Prop := ∀ i ∈ l, okIntf c i

def okPhysLit : PhysLit → Prop
  | .name n => okName n
  | .dec t n => (∃ e, visitDec t = .ok e) ∧ okName n
  | .based t n => (∃ v, vhdlBased t = .ok v) ∧ okName n

/-- No access, file and protected types. -/
def okTypeDef : TypeDef → Prop
  | .enum l => ∀ t, .chr t ∈ l → litOk (.chr t)
  | .range r => okRange r
  | .phys r _ l => okRange r ∧ ∀ u ∈ l, okPhysLit u.2
  | .unbounded l e => (∀ n ∈ l, okName n) ∧ okSubInd e
  | .constrained l e => okDiscrs l ∧ okSubInd e
  | .record l => ∀ p ∈ l, okSubInd p.2
  | _ => False

def okSuffix (s : Suffix) : Prop := match s with | .lit l => litOk l | .all => True

def okSelName (n : SelName) : Prop := ∀ s ∈ n.rest, okSuffix s

/-- No generics. -/
def okSubSpec : SubSpec → Prop
  | .proc _ g p => g = [] ∧ okIntfs .param p
  | .func _ _ g p r => g = [] ∧ okIntfs .param p ∧ okName r

mutual
/-- The supported declarations. -/
def okDecl : Decl → Prop
  | .subprogram s => okSubSpec s
  | .package _ g l => g = [] ∧ okDecls l
  | .typeIncomplete _ => True
  | .type _ t => okTypeDef t
  | .subtype _ s => okSubInd s
  | .constant v => okVars v
  | .variable _ v => okVars v
  | .signal v k => okVars v ∧ k = false
  | .alias_ _ t n sg => (∀ s, t = some s → okSubInd s) ∧ okName n ∧ sg = false
  | .use l => ∀ n ∈ l, okSelName n
  | .subBody s ds ss => okSubSpec s ∧ okDecls ds ∧ okSeqs ss
  | .packageBody _ l => okDecls l
  | .component _ g p => okIntfs .generic g ∧ okIntfs .port p
  | _ => False
def okDecls : List Decl → Prop
  | [] => True
  | d :: l => okDecl d ∧ okDecls l
end

def okSens : ProcSens → Prop
  | .names l => ∀ n ∈ l, okName n
  | _ => True

/-- Not postponed, not guarded, no delay mechanism, no question mark; `others` is the last choice. -/
def okConcKind : ConcKind → Prop
  | .process pp sens ds ss => pp = false ∧ okSens sens ∧ okDecls ds ∧ okSeqs ss
  | .call pp n => pp = false ∧ okCall n
  | .assert_ pp c r s => pp = false ∧ okExpression c ∧ okOpt r ∧ okOpt s ∧ (r = none → s = none)
  | .assign pp g t d w => pp = false ∧ g = false ∧ d = none ∧ okTarget t ∧ okWave w
  | .assignCond pp g t d c => pp = false ∧ g = false ∧ d = none ∧ okTarget t ∧ okCondWaves c
  | .assignSel pp g e q t d l => pp = false ∧ g = false ∧ d = none ∧ q = false ∧ okExpression e ∧ okTarget t ∧
    (∀ p ∈ l, okWave p.1 ∧ okChoices p.2) ∧ nOthers (l.flatMap (·.2)).dropLast = 0

def okMap (o : Option (List Assoc)) : Prop := ∀ l, o = some l → okAssocs l

/-- A component. -/
def okUnit : InstUnit → Prop
  | .component _ n => okName n
  | _ => False

/-- The choices of the alternatives. -/
def genChoices : List GenAlt → List Choice
  | [] => []
  | .mk _ ch _ :: r => ch ++ genChoices r

mutual
/-- Blocks without guard and header; components are instantiated; alternatives of generate statements have no labels; no `others` in a
`case generate`. -/
def okConc : Conc → Prop
  | .plain _ s => okConcKind s
  | .block _ g gs ps ds ss => g = none ∧ gs = [] ∧ ps = [] ∧ okDecls ds ∧ okConcs ss
  | .inst _ u g p => okUnit u ∧ okMap g ∧ okMap p
  | .forGen label _ d b endl => okDiscr d ∧ okGenBody b ∧ (endl = none ∨ endl = some label)
  | .ifGen label c el f endl => okGenCond c ∧ okGenConds el ∧ okGenElse f ∧ (endl = none ∨ endl = some label)
  | .caseGen _ e alts _ => okExpression e ∧ okGenAlts alts ∧ nOthers (genChoices alts) = 0
def okConcs : List Conc → Prop
  | [] => True
  | c :: l => okConc c ∧ okConcs l
def okGenCond : GenCond → Prop
  | .mk l c b => l = none ∧ okExpression c ∧ okGenBody b
def okGenConds : List GenCond → Prop
  | [] => True
  | c :: l => okGenCond c ∧ okGenConds l
def okGenElse : GenElse → Prop
  | .none => True
  | .some l b => l = none ∧ okGenBody b
def okGenAlts : List GenAlt → Prop
  | [] => True
  | .mk l ch b :: r => l = none ∧ okChoices ch ∧ okGenBody b ∧ okGenAlts r
def okGenBody : GenBody → Prop
  | .mk ds _ ss => okDecls ds ∧ okConcs ss
end

def okContextItem : ContextItem → Prop
  | .library _ => True
  | .use l => ∀ n ∈ l, okSelName n
  | .contextRef _ => False

/-- Entities without statements, packages without generics; no configurations, instantiations of packages and contexts. -/
def okLibUnit : LibUnit → Prop
  | .entity _ g p ds ss => okIntfs .generic g ∧ okIntfs .port p ∧ okDecls ds ∧ ss = []
  | .package _ g l => g = [] ∧ okDecls l
  | .arch _ e ds ss => okName e ∧ okDecls ds ∧ okConcs ss
  | .packageBody _ l => okDecls l
  | _ => False

def okDesignUnit (u : DesignUnit) : Prop := (∀ i ∈ u.ctx, okContextItem i) ∧ okLibUnit u.unit

/-! ## Copies of expressions -/

variable {V S : Type} {A : Alg V} {B : SAlg V S} {leaf : Expr → V}

mutual
theorem clone_eval : ∀ (e : Expr) (v : V), astEval A leaf e = some v → ∃ e', e.clone = .ok e' ∧ astEval A leaf e' = some v
  | .null, v, h => by simp [astEval] at h
  | .id p s, v, h => ⟨_, rfl, h⟩
  | .int p s, v, h => ⟨_, rfl, h⟩
  | .float p s, v, h => ⟨_, rfl, h⟩
  | .str p s, v, h => ⟨_, rfl, h⟩
  | .symb p k, v, h => ⟨.symb none k, by simp [Expr.clone], by simpa [astEval] using h⟩
  | .arr p l, v, h => by
    simp only [astEval, Option.map_eq_some_iff] at h
    obtain ⟨vs, hv, rfl⟩ := h
    obtain ⟨l', h1, h2⟩ := cloneList_eval l vs hv
    exact ⟨.arr none l', by simp only [Expr.clone, h1, bind, Except.bind, pure, Except.pure], by simp [astEval, h2]⟩
  | .op p o l, v, h => by
    simp only [astEval] at h
    obtain ⟨vs, hv, h⟩ := Option.bind_eq_some_iff.1 h
    obtain ⟨l', h1, h2⟩ := cloneList_eval l vs hv
    exact ⟨.op none o l', by simp only [Expr.clone, h1, bind, Except.bind, pure, Except.pure], by simp [astEval, h2, h]⟩
  | .notImpl p, v, h => by simp [astEval] at h
  | .enumDef .., v, h => by simp [astEval] at h
  | .physDef .., v, h => by simp [astEval] at h
  | .classDef .., v, h => by simp [astEval] at h
theorem cloneList_eval : ∀ (l : List Expr) (vs : List V), astEvals A leaf l = some vs →
    ∃ l', cloneList l = .ok l' ∧ astEvals A leaf l' = some vs
  | [], vs, h => ⟨[], by simp [cloneList], h⟩
  | e :: l, vs, h => by
    simp only [astEvals, Option.bind_eq_bind] at h
    obtain ⟨a, ha, h⟩ := Option.bind_eq_some_iff.1 h
    obtain ⟨b, hb, h⟩ := Option.bind_eq_some_iff.1 h
    simp only [pure, Option.some.injEq] at h
    subst h
    obtain ⟨e', h1, h2⟩ := clone_eval e a ha
    obtain ⟨l', h3, h4⟩ := cloneList_eval l b hb
    exact ⟨e' :: l', by simp only [cloneList, h1, h3, bind, Except.bind, pure, Except.pure], by simp [astEvals, h2, h4]⟩
end

theorem astOpt_some {e : Expr} {v : V} (h : astEval A leaf e = some v) : astOpt A leaf e = some (some v) := by
  cases e <;> first | (simp [astEval] at h; done) | (simp only [astOpt, h]; rfl)

/-! ## Lists of variables -/

/-- The definition of `n`: nothing but name, type and value is set, and type and value mean `t` and `v`. -/
def DefOk (A : Alg V) (leaf : Expr → V) (t : V) (v : Option V) (n : Str) (d : IdDef) : Prop :=
  d = { name := n, type := d.type, value := d.value } ∧ astEval A leaf d.type = some t ∧ astOpt A leaf d.value = some v

theorem init_eval (hA : Agrees A leaf) {o : Option Expression} (h : okOpt o) :
    ∃ e, visitInit o = .ok e ∧ astOpt A leaf e = some (o.map (evExpression A)) := by
  cases o with
  | none => exact ⟨.null, rfl, rfl⟩
  | some x =>
    obtain ⟨e, h1, h2, -⟩ := expression_eval hA x (h x rfl)
    exact ⟨e, h1, astOpt_some h2⟩

theorem astOpt_cases {e : Expr} {v : Option V} (h : astOpt A leaf e = some v) :
    (e = .null ∧ v = none) ∨ ∃ w, v = some w ∧ astEval A leaf e = some w := by
  cases e <;> simp only [astOpt, Option.some.injEq, Option.map_eq_some_iff] at h <;>
    first | exact .inl ⟨rfl, h.symm⟩ | (obtain ⟨w, h1, h2⟩ := h; exact .inr ⟨w, h2.symm, h1⟩)

theorem cloneOpt_eval {e : Expr} {v : Option V} (h : astOpt A leaf e = some v) :
    ∃ e', cloneOpt e = .ok e' ∧ astOpt A leaf e' = some v := by
  rcases astOpt_cases h with ⟨rfl, rfl⟩ | ⟨w, rfl, hw⟩
  · exact ⟨.null, rfl, rfl⟩
  · obtain ⟨e', h1, h2⟩ := clone_eval e w hw
    refine ⟨e', ?_, astOpt_some h2⟩
    rw [← h1]
    cases e <;> first | (simp [astEval] at hw; done) | rfl

theorem cloneVars_eval {t v : Expr} {vt : V} {vv : Option V} (ht : astEval A leaf t = some vt) (hv : astOpt A leaf v = some vv) :
    ∀ ns : List Str, ∃ l, cloneVars t v ns = .ok l ∧ List.Forall₂ (DefOk A leaf vt vv) ns l
  | [] => ⟨[], rfl, .nil⟩
  | n :: ns => by
    obtain ⟨t', h1, h2⟩ := clone_eval t vt ht
    obtain ⟨v', h3, h4⟩ := cloneOpt_eval hv
    obtain ⟨l, h5, h6⟩ := cloneVars_eval ht hv ns
    refine ⟨{ name := n, type := t', value := v' } :: l, ?_, .cons ⟨rfl, h2, h4⟩ h6⟩
    simp only [cloneVars, h1, h3, h5, bind, Except.bind, pure, Except.pure]

theorem vars_eval (hA : Agrees A leaf) {v : VarList} (h : okVars v) :
    ∃ l, extractVars v = .ok l ∧ List.Forall₂ (DefOk A leaf (evSubInd A v.type) (v.init.map (evExpression A))) v.names l := by
  obtain ⟨t, h1, h2⟩ := subind_eval hA v.type h.1
  obtain ⟨e, h3, h4⟩ := init_eval hA h.2
  obtain ⟨ns, ty, i⟩ := v
  cases ns with
  | nil => exact ⟨[], by simp only [extractVars, h1, h3, bind, Except.bind, pure, Except.pure], .nil⟩
  | cons n ns =>
    obtain ⟨l, h5, h6⟩ := cloneVars_eval h2 h4 ns
    exact ⟨_, by simp only [extractVars, h1, h3, h5, bind, Except.bind, pure, Except.pure]; rfl, .cons ⟨rfl, h2, h4⟩ h6⟩

/-- Reading a list of definitions one by one. -/
theorem objs_vars {t : V} {v : Option V} {f : Str → V → Option V → S} {g : IdDef → IdDef}
    (hg : ∀ n d, DefOk A leaf t v n d → astDecl A B leaf (g d) = some (f n t v)) :
    ∀ (ns : List Str) (l : List IdDef), List.Forall₂ (DefOk A leaf t v) ns l →
      astObjs A B leaf (l.map fun d => .id (g d)) = some (ns.map fun n => f n t v)
  | [], _, .nil => by simp [astObjs]
  | n :: ns, d :: l, .cons h1 h2 => by
    simp [astObjs, astObj, hg n d h1, objs_vars hg ns l h2]

theorem intfs_vars {c : ICtx} {t : V} {v : Option V} {f : Str → V → Option V → S} {g : IdDef → IdDef}
    (hg : ∀ n d, DefOk A leaf t v n d → astIntf A B leaf c (g d) = some (f n t v)) :
    ∀ (ns : List Str) (l : List IdDef), List.Forall₂ (DefOk A leaf t v) ns l →
      astIntfs A B leaf c (l.map g) = some (ns.map fun n => f n t v)
  | [], _, .nil => by simp [astIntfs]
  | n :: ns, d :: l, .cons h1 h2 => by
    simp [astIntfs, hg n d h1, intfs_vars hg ns l h2]

theorem astDecl_var {t : V} {v : Option V} {n : Str} {d : IdDef} (h : DefOk A leaf t v n d) :
    astDecl A B leaf { d with const := true } = some (B.decl .constant n t v) ∧
    (∀ sh, astDecl A B leaf { d with latched := true, shared := sh } = some (B.decl (.variable sh) n t v)) ∧
    astDecl A B leaf d = some (B.decl .signal n t v) := by
  obtain ⟨h1, h2, h3⟩ := h
  obtain ⟨_, ty, val, _⟩ := d
  cases h1
  simp only at h2 h3
  refine ⟨?_, fun sh => ?_, ?_⟩
  all_goals
    unfold astDecl
    simp only
    split
    · simp [astEval, symMeaning] at h2
    · simp [astEval, symMeaning] at h2
    · simp [h2, h3]
    · simp_all

theorem mode_eval (m : Option Mode) : astMode (visitMode m) = some (m.getD .in_) := by
  cases m with
  | none => rfl
  | some m => cases m <;> rfl

theorem intf_eval (hA : Agrees A leaf) {c : ICtx} {i : Intf} (h : okIntf c i) :
    ∃ l, visitIntf i = .ok l ∧ astIntfs A B leaf c l = some (evIntf A B c i) := by
  cases i with
  | const v b =>
    simp only [okIntf] at h
    obtain ⟨l, h1, h2⟩ := vars_eval hA h.1
    refine ⟨_, by simp only [visitIntf, h1, bind, Except.bind, pure, Except.pure]; rfl, ?_⟩
    refine intfs_vars (f := B.intf .constant) (fun n d hd => ?_) _ _ h2
    obtain ⟨h3, h4, h5⟩ := hd
    obtain ⟨_, ty, val, _⟩ := d
    cases h3
    simp only at h4 h5
    cases c <;> first | exact absurd rfl h.2 | simp [astIntf, astIKind, h4, h5]
  | sig kw v m bus =>
    simp only [okIntf] at h
    obtain ⟨hv, rfl, hc⟩ := h
    obtain ⟨l, h1, h2⟩ := vars_eval hA hv
    refine ⟨_, by simp only [visitIntf, h1, bind, Except.bind, pure, Except.pure]; rfl, ?_⟩
    simp only [evIntf]
    refine intfs_vars (f := B.intf (if kw then .signal (m.getD .in_) else defaultKind c (m.getD .in_))) (fun n d hd => ?_) _ _ h2
    obtain ⟨h3, h4, h5⟩ := hd
    obtain ⟨_, ty, val, _⟩ := d
    cases h3
    simp only at h4 h5
    cases c with
    | generic =>
      have : kw = false := by rcases hc with hc | hc; · cases hc
                              · exact hc
      subst this
      simp [astIntf, astIKind, h4, h5, defaultKind]
    | port => cases kw <;> simp [astIntf, astIKind, h4, h5, mode_eval, defaultKind]
    | param =>
      have : kw = false := by rcases hc with hc | hc; · cases hc
                              · exact hc
      subst this
      simp [astIntf, astIKind, h4, h5, mode_eval]
  | var v m =>
    simp only [okIntf] at h
    obtain ⟨hv, rfl⟩ := h
    obtain ⟨l, h1, h2⟩ := vars_eval hA hv
    refine ⟨_, by simp only [visitIntf, h1, bind, Except.bind, pure, Except.pure]; rfl, ?_⟩
    refine intfs_vars (f := B.intf (.variable (m.getD .in_))) (fun n d hd => ?_) _ _ h2
    obtain ⟨h3, h4, h5⟩ := hd
    obtain ⟨_, ty, val, _⟩ := d
    cases h3
    simp only at h4 h5
    simp [astIntf, astIKind, h4, h5, mode_eval]
  | file => simp [okIntf] at h
  | type => simp [okIntf] at h
  | subprogram => simp [okIntf] at h
  | package => simp [okIntf] at h

theorem astIntfs_append {c : ICtx} {l₁ l₂ : List IdDef} {v₁ v₂ : List S} (h₁ : astIntfs A B leaf c l₁ = some v₁)
    (h₂ : astIntfs A B leaf c l₂ = some v₂) : astIntfs A B leaf c (l₁ ++ l₂) = some (v₁ ++ v₂) := by
  induction l₁ generalizing v₁ with
  | nil => simp [astIntfs] at h₁; subst h₁; simpa using h₂
  | cons e l ih =>
    simp only [astIntfs, Option.bind_eq_bind] at h₁
    obtain ⟨a, ha, h₁⟩ := Option.bind_eq_some_iff.1 h₁
    obtain ⟨b, hb, h₁⟩ := Option.bind_eq_some_iff.1 h₁
    simp only [pure, Option.some.injEq] at h₁
    subst h₁
    simp [astIntfs, ha, ih hb]

theorem intfs_eval (hA : Agrees A leaf) {c : ICtx} : ∀ l : List Intf, okIntfs c l →
    ∃ r, visitIntfs l = .ok r ∧ astIntfs A B leaf c r = some (l.flatMap (evIntf A B c))
  | [], _ => ⟨[], rfl, rfl⟩
  | i :: l, h => by
    obtain ⟨r, h1, h2⟩ := intf_eval hA (h i (by simp))
    obtain ⟨rs, h3, h4⟩ := intfs_eval hA l fun j hj => h j (by simp [hj])
    exact ⟨r ++ rs, by simp only [visitIntfs, h1, h3, bind, Except.bind, pure, Except.pure], by simpa using astIntfs_append h2 h4⟩

/-! ## Types -/

theorem enum_eval (hA : Agrees A leaf) : ∀ l : List EnumLit, (∀ t, .chr t ∈ l → litOk (.chr t)) →
    ∃ r, visitEnumLits l = .ok r ∧ astEnum A leaf r.1 r.2 = some (l.map (evEnumLit A))
  | [], _ => ⟨([], []), rfl, rfl⟩
  | .ident t :: l, h => by
    obtain ⟨r, h1, h2⟩ := enum_eval hA l fun t ht => h t (by simp [ht])
    exact ⟨_, by simp only [visitEnumLits, h1, bind, Except.bind, pure, Except.pure]; rfl, by simp [astEnum, h2, evEnumLit]⟩
  | .chr t :: l, h => by
    obtain ⟨r, h1, h2⟩ := enum_eval hA l fun t ht => h t (by simp [ht])
    obtain ⟨e, h3, h4, -⟩ := lit_eval hA (h t (by simp))
    simp only [visitNameLit] at h3
    obtain ⟨v, hv, h3⟩ := bind_ok h3
    cases h3
    exact ⟨_, by simp only [visitEnumLits, hv, h1, bind, Except.bind, pure, Except.pure]; rfl, by simp [astEnum, h2, h4, evEnumLit]⟩

theorem physLit_eval (hA : Agrees A leaf) {p : PhysLit} (h : okPhysLit p) :
    ∃ e, visitPhysLit p = .ok e ∧ astEval A leaf e = some (evPhysLit A p) := by
  cases p with
  | name n => obtain ⟨e, h1, h2, -⟩ := name_eval hA n h; exact ⟨e, h1, h2⟩
  | dec t n =>
    obtain ⟨⟨e, he⟩, h⟩ := h
    obtain ⟨en, hn1, hn2, -⟩ := name_eval hA n h
    refine ⟨_, by simp only [visitPhysLit, hn1, he, bind, Except.bind, pure, Except.pure]; rfl, ?_⟩
    rw [astEval_bin (dec_eval hA he).1 hn2]; simp [opMeaning, evPhysLit]
  | based t n =>
    obtain ⟨⟨v, hv⟩, h⟩ := h
    obtain ⟨en, hn1, hn2, -⟩ := name_eval hA n h
    refine ⟨_, by simp only [visitPhysLit, hn1, hv, bind, Except.bind, pure, Except.pure]; rfl, ?_⟩
    have : astEval A leaf (.int none v) = some (A.based t) := by simp [astEval, hA.based t v hv]
    rw [astEval_bin this hn2]; simp [opMeaning, evPhysLit]

theorem units_eval (hA : Agrees A leaf) : ∀ l : List (Str × PhysLit), (∀ u ∈ l, okPhysLit u.2) →
    ∃ r, visitUnits l = .ok r ∧ astUnits A leaf (l.map (·.1)) r = some (l.map fun u => (u.1, evPhysLit A u.2))
  | [], _ => ⟨[], rfl, rfl⟩
  | (n, p) :: l, h => by
    obtain ⟨e, h1, h2⟩ := physLit_eval hA (h (n, p) (by simp))
    obtain ⟨r, h3, h4⟩ := units_eval hA l fun u hu => h u (by simp [hu])
    exact ⟨_, by simp only [visitUnits, h1, h3, bind, Except.bind, pure, Except.pure]; rfl, by simp [astUnits, h2, h4]⟩

theorem indexTypes_eval (hA : Agrees A leaf) : ∀ l : List Name, (∀ n ∈ l, okName n) →
    ∃ r, visitIndexTypes l = .ok r ∧ astEvals A leaf r = some (l.map fun n => A.bin "range" (evName A n) A.opn)
  | [], _ => ⟨[], rfl, rfl⟩
  | n :: l, h => by
    obtain ⟨e, h1, h2, -⟩ := name_eval hA n (h n (by simp))
    obtain ⟨r, h3, h4⟩ := indexTypes_eval hA l fun m hm => h m (by simp [hm])
    refine ⟨_, by simp only [visitIndexTypes, h1, h3, bind, Except.bind, pure, Except.pure]; rfl, ?_⟩
    have : astEval A leaf (.mkBin none e .RANGE (.symb none .OPEN)) = some (A.bin "range" (evName A n) A.opn) := by
      rw [astEval_bin h2 (vb := A.opn) (by simp [astEval, symMeaning])]; rfl
    simp [astEvals, this, h4]

theorem astMembers_append {l₁ l₂ : List IdDef} {v₁ v₂ : List (Str × V)} (h₁ : astMembers A leaf l₁ = some v₁)
    (h₂ : astMembers A leaf l₂ = some v₂) : astMembers A leaf (l₁ ++ l₂) = some (v₁ ++ v₂) := by
  induction l₁ generalizing v₁ with
  | nil => simp [astMembers] at h₁; subst h₁; simpa using h₂
  | cons e l ih =>
    simp only [astMembers, Option.bind_eq_bind] at h₁
    obtain ⟨a, ha, h₁⟩ := Option.bind_eq_some_iff.1 h₁
    obtain ⟨b, hb, h₁⟩ := Option.bind_eq_some_iff.1 h₁
    simp only [pure, Option.some.injEq] at h₁
    subst h₁
    simp [astMembers, ha, ih hb]

theorem membersOf_vars {t : V} {v : Option V} : ∀ (ns : List Str) (l : List IdDef), List.Forall₂ (DefOk A leaf t v) ns l →
    astMembers A leaf l = some (ns.map fun n => (n, t))
  | [], _, .nil => rfl
  | n :: ns, d :: l, .cons h1 h2 => by
    have : d.name = n := by rw [h1.1]
    simp [astMembers, h1.2.1, this, membersOf_vars ns l h2]

theorem members_eval (hA : Agrees A leaf) : ∀ l : List (List Str × SubInd), (∀ p ∈ l, okSubInd p.2) →
    ∃ r, visitMembers l = .ok r ∧ astMembers A leaf r = some (l.flatMap fun p => p.1.map fun n => (n, evSubInd A p.2))
  | [], _ => ⟨[], rfl, rfl⟩
  | (ns, t) :: l, h => by
    obtain ⟨d, h1, h2⟩ := vars_eval hA (v := ⟨ns, t, none⟩) ⟨h (ns, t) (by simp), by intro e he; cases he⟩
    obtain ⟨r, h3, h4⟩ := members_eval hA l fun u hu => h u (by simp [hu])
    exact ⟨d ++ r, by simp only [visitMembers, h1, h3, bind, Except.bind, pure, Except.pure],
      by simpa using astMembers_append (membersOf_vars _ _ h2) h4⟩

theorem typeDef_eval {name : Str} {v : Expr} {s : S} (h : astTypeDef A B leaf name v = some s) :
    astObj A B leaf (typeDef name v) = some s := by
  simp only [typeDef, astObj, astDecl]
  simpa using h

theorem type_eval (hA : Agrees A leaf) (name : Str) {t : TypeDef} (h : okTypeDef t) :
    ∃ o, visitTypeDef name t = .ok o ∧ astObj A B leaf o = some (evTypeDef A B name t) := by
  cases t with
  | enum l =>
    obtain ⟨r, h1, h2⟩ := enum_eval hA l h
    refine ⟨_, by simp only [visitTypeDef, h1, bind, Except.bind, pure, Except.pure]; rfl, typeDef_eval ?_⟩
    simp [astTypeDef, h2, evTypeDef]
  | range r =>
    obtain ⟨e, h1, h2⟩ := range_eval hA r h
    refine ⟨_, by simp only [visitTypeDef, h1, bind, Except.bind, pure, Except.pure]; rfl, typeDef_eval ?_⟩
    simp [Expr.mkUn, astTypeDef, h2, evTypeDef]
  | phys r p l =>
    obtain ⟨e, h1, h2⟩ := range_eval hA r h.1
    obtain ⟨us, h3, h4⟩ := units_eval hA l h.2
    refine ⟨_, by simp only [visitTypeDef, h1, h3, bind, Except.bind, pure, Except.pure]; rfl, typeDef_eval ?_⟩
    simp [Expr.mkUn, astTypeDef, h2, h4, evTypeDef]
  | unbounded l e =>
    obtain ⟨r, h1, h2⟩ := indexTypes_eval hA l h.1
    obtain ⟨x, h3, h4⟩ := subind_eval hA e h.2
    refine ⟨_, by simp only [visitTypeDef, h1, h3, bind, Except.bind, pure, Except.pure]; rfl, typeDef_eval ?_⟩
    simp [astTypeDef, h2, h4, evTypeDef]
  | constrained l e =>
    obtain ⟨r, h1, h2⟩ := discrs_eval hA l h.1
    obtain ⟨x, h3, h4⟩ := subind_eval hA e h.2
    refine ⟨_, by simp only [visitTypeDef, h1, h3, bind, Except.bind, pure, Except.pure]; rfl, typeDef_eval ?_⟩
    simp [Expr.mkIndex, astTypeDef, h2, h4, evTypeDef]
  | record l =>
    obtain ⟨r, h1, h2⟩ := members_eval hA l h
    exact ⟨_, by simp only [visitTypeDef, h1, bind, Except.bind, pure, Except.pure]; rfl, by simp [astObj, h2, evTypeDef]⟩
  | access => simp [okTypeDef] at h
  | file => simp [okTypeDef] at h
  | protected_ => simp [okTypeDef] at h

/-! ## Use clauses -/

theorem flattenDot_suffix {s : Suffix} {e : Expr} (h : visitSuffix s = .ok e) : flattenDot e = [e] := by
  cases s with
  | all => cases h; simp [flattenDot]
  | lit l =>
    simp only [visitSuffix] at h
    cases l with
    | ident t => cases h; simp [flattenDot]
    | opSymbol t => simp only [visitNameLit] at h; obtain ⟨s, -, h⟩ := bind_ok h; cases h; simp [flattenDot]
    | chr t => simp only [visitNameLit] at h; obtain ⟨s, -, h⟩ := bind_ok h; cases h; simp [flattenDot]

theorem suffixes_eval (hA : Agrees A leaf) : ∀ (l : List Suffix) (top : Expr) (vs : List V), (∀ s ∈ l, okSuffix s) → top ≠ .null →
    astEvals A leaf (flattenDot top) = some vs →
    ∃ e, visitSuffixes top l = .ok e ∧ astEvals A leaf (flattenDot e) = some (vs ++ l.map (evSuffix A))
  | [], top, vs, _, _, h => ⟨top, rfl, by simpa using h⟩
  | s :: l, top, vs, hs, hn, h => by
    obtain ⟨e, h1, h2⟩ := suffix_eval hA (hs s (by simp))
    have hp : top.push = [top] := by cases top <;> first | rfl | exact absurd rfl hn
    have hfl : astEvals A leaf (flattenDot (.mkBin none top .DOT e)) = some (vs ++ [evSuffix A s]) := by
      simp only [Expr.mkBin, hp, astEval_push h2, flattenDot, flattenDots, List.append_nil, if_true, List.cons_append, List.nil_append,
        flattenDot_suffix h1]
      exact astEvals_append h (astEvals_one h2)
    obtain ⟨r, h3, h4⟩ := suffixes_eval hA l _ _ (fun t ht => hs t (by simp [ht])) (by simp [Expr.mkBin]) hfl
    exact ⟨r, by simp only [visitSuffixes, h1, bind, Except.bind]; exact h3, by simpa using h4⟩

theorem use_eval (hA : Agrees A leaf) : ∀ l : List SelName, (∀ n ∈ l, okSelName n) →
    ∃ os, visitUse l = .ok os ∧ astObjs A B leaf os = some (l.map fun n => B.use (evSelName A n))
  | [], _ => ⟨[], rfl, by simp [astObjs]⟩
  | n :: l, h => by
    obtain ⟨e, h1, h2⟩ := suffixes_eval hA n.rest (.id none n.head) [A.lit (.ident n.head)] (h n (by simp)) (by simp)
      (by simpa [flattenDot] using astEvals_one (ident_eval hA n.head))
    obtain ⟨os, h3, h4⟩ := use_eval hA l fun m hm => h m (by simp [hm])
    refine ⟨_, by simp only [visitUse, visitSelName, h1, h3, bind, Except.bind, pure, Except.pure]; rfl, ?_⟩
    simp [astObjs, astObj, h2, h4, evSelName]

/-! ## Declarations -/

theorem astObjs_append {l₁ l₂ : List Obj} {v₁ v₂ : List S} (h₁ : astObjs A B leaf l₁ = some v₁)
    (h₂ : astObjs A B leaf l₂ = some v₂) : astObjs A B leaf (l₁ ++ l₂) = some (v₁ ++ v₂) := by
  induction l₁ generalizing v₁ with
  | nil => simp [astObjs] at h₁; subst h₁; simpa using h₂
  | cons e l ih =>
    simp only [astObjs, Option.bind_eq_bind] at h₁
    obtain ⟨a, ha, h₁⟩ := Option.bind_eq_some_iff.1 h₁
    obtain ⟨b, hb, h₁⟩ := Option.bind_eq_some_iff.1 h₁
    simp only [pure, Option.some.injEq] at h₁
    subst h₁
    simp [astObjs, ha, ih hb]

theorem astObjs_one {o : Obj} {v : S} (h : astObj A B leaf o = some v) : astObjs A B leaf [o] = some [v] := by
  simp [astObjs, h]

/-- A function head: nothing but what VHDL knows. -/
theorem subSpec_eval (hA : Agrees A leaf) {s : SubSpec} (h : okSubSpec s) :
    ∃ f, visitSubSpec s = .ok f ∧ ∀ b l vl, astObjs A B leaf l = some vl →
      astObj A B leaf (.fn { f with declOnly := b } l) = some (B.subprogram (evSubSpec A B s) (if b then none else some vl)) := by
  cases s with
  | proc d g p =>
    simp only [okSubSpec] at h
    obtain ⟨rfl, h⟩ := h
    obtain ⟨ps, h1, h2⟩ := intfs_eval (B := B) hA p h
    refine ⟨_, by simp only [visitSubSpec, h1, bind, Except.bind, pure, Except.pure]; rfl, fun b l vl hl => ?_⟩
    cases d <;> simp [astObj, h2, hl, astOpt, evSubSpec, Designator.text, Designator.isOp, desigName, desigOp]
  | func imp d g p r =>
    simp only [okSubSpec] at h
    obtain ⟨rfl, h, hr⟩ := h
    obtain ⟨ps, h1, h2⟩ := intfs_eval (B := B) hA p h
    obtain ⟨e, h3, h4, -⟩ := name_eval hA r hr
    refine ⟨_, by simp only [visitSubSpec, h1, h3, bind, Except.bind, pure, Except.pure]; rfl, fun b l vl hl => ?_⟩
    cases d <;> simp [astObj, h2, hl, astOpt_some h4, evSubSpec, Designator.text, Designator.isOp, desigName, desigOp]

theorem alias_eval {d : Str} {t v : Expr} {vt : Option V} {vv : V} (ht : astOpt A leaf t = some vt) (hv : astEval A leaf v = some vv) :
    astDecl A B leaf { name := d, type := t, value := v, alias_ := true } = some (B.alias_ d vt vv) := by
  unfold astDecl
  simp only
  split
  · simp [astOpt, astEval, symMeaning] at ht
  · simp [astOpt, astEval, symMeaning] at ht
  · simp [ht, hv]
  · simp_all

mutual
theorem decl_eval (hA : Agrees A leaf) (hB : SAgrees B leaf) : ∀ d : Decl, okDecl d →
    ∃ os, visitDecl false d = .ok os ∧ astObjs A B leaf os = some (evDecl A B d)
  | .subprogram s, h => by
    simp only [okDecl] at h
    obtain ⟨f, h1, h2⟩ := subSpec_eval (B := B) hA h
    have h3 : f = { f with declOnly := true } := by
      cases s <;> simp only [visitSubSpec] at h1
      · obtain ⟨_, -, h1⟩ := bind_ok h1; cases h1; rfl
      · obtain ⟨_, -, h1⟩ := bind_ok h1; obtain ⟨_, -, h1⟩ := bind_ok h1; cases h1; rfl
    refine ⟨_, by simp only [visitDecl, h1, bind, Except.bind, pure, Except.pure]; rfl, ?_⟩
    simp only [evDecl]
    refine astObjs_one ?_
    rw [h3]
    simpa using h2 true [] [] (by simp [astObjs])
  | .package n g l, h => by
    simp only [okDecl] at h
    obtain ⟨rfl, h⟩ := h
    obtain ⟨os, h1, h2⟩ := decls_eval hA hB l h
    refine ⟨_, by simp only [visitDecl, h1, bind, Except.bind, pure, Except.pure, Bool.false_eq_true, if_false]; rfl, ?_⟩
    simp only [evDecl]
    exact astObjs_one (by simp [astObj, h2])
  | .typeIncomplete n, _ => by
    refine ⟨_, by simp only [visitDecl]; rfl, ?_⟩
    simp only [evDecl]
    exact astObjs_one (typeDef_eval (by simp [astTypeDef]))
  | .type n t, h => by
    simp only [okDecl] at h
    obtain ⟨o, h1, h2⟩ := type_eval hA n h
    refine ⟨_, by simp only [visitDecl, h1, bind, Except.bind, pure, Except.pure]; rfl, ?_⟩
    simp only [evDecl]
    exact astObjs_one h2
  | .subtype n s, h => by
    simp only [okDecl] at h
    obtain ⟨e, h1, h2⟩ := subind_eval hA s h
    refine ⟨_, by simp only [visitDecl, h1, bind, Except.bind, pure, Except.pure]; rfl, ?_⟩
    simp only [evDecl]
    exact astObjs_one (by simp [astObj, astDecl, h2])
  | .constant v, h => by
    simp only [okDecl] at h
    obtain ⟨l, h1, h2⟩ := vars_eval hA h
    refine ⟨_, by simp only [visitDecl, h1, bind, Except.bind, pure, Except.pure]; rfl, ?_⟩
    simp only [evDecl, evVars]
    exact objs_vars (g := fun d => { d with const := true }) (fun n d hd => (astDecl_var hd).1) _ _ h2
  | .variable sh v, h => by
    simp only [okDecl] at h
    obtain ⟨l, h1, h2⟩ := vars_eval hA h
    refine ⟨_, by simp only [visitDecl, h1, bind, Except.bind, pure, Except.pure]; rfl, ?_⟩
    simp only [evDecl, evVars]
    exact objs_vars (g := fun d => { d with latched := true, shared := sh }) (fun n d hd => (astDecl_var hd).2.1 sh) _ _ h2
  | .signal v k, h => by
    simp only [okDecl] at h
    obtain ⟨h, rfl⟩ := h
    obtain ⟨l, h1, h2⟩ := vars_eval hA h
    refine ⟨_, by simp only [visitDecl, h1, bind, Except.bind, pure, Except.pure]; rfl, ?_⟩
    simp only [evDecl, evVars]
    exact objs_vars (g := fun d => d) (fun n d hd => (astDecl_var hd).2.2) _ _ h2
  | .alias_ d t n sg, h => by
    simp only [okDecl] at h
    obtain ⟨ht, hn, rfl⟩ := h
    obtain ⟨e, h1, h2, -⟩ := name_eval hA n hn
    have : ∃ x, visitAliasType t = .ok x ∧ astOpt A leaf x = some (t.map (evSubInd A)) := by
      cases t with
      | none => exact ⟨.null, rfl, rfl⟩
      | some s =>
        obtain ⟨x, h3, h4⟩ := subind_eval hA s (ht s rfl)
        exact ⟨x, h3, astOpt_some h4⟩
    obtain ⟨x, h3, h4⟩ := this
    refine ⟨_, by simp only [visitDecl, h1, h3, bind, Except.bind, pure, Except.pure]; rfl, ?_⟩
    simp only [evDecl]
    exact astObjs_one (by simpa [astObj] using alias_eval h4 h2)
  | .use l, h => by
    simp only [okDecl] at h
    obtain ⟨os, h1, h2⟩ := use_eval (B := B) hA l h
    exact ⟨os, by simpa [visitDecl] using h1, by simpa [evDecl] using h2⟩
  | .subBody s ds ss, h => by
    simp only [okDecl] at h
    obtain ⟨f, h1, h2⟩ := subSpec_eval (B := B) hA h.1
    obtain ⟨os, h3, h4⟩ := decls_eval hA hB ds h.2.1
    obtain ⟨bs, h5, -, h6⟩ := seqs_eval hA hB ss h.2.2
    refine ⟨_, by simp only [visitDecl, h1, h3, h5, bind, Except.bind, pure, Except.pure]; rfl, ?_⟩
    simp only [evDecl]
    exact astObjs_one (by simpa using h2 false _ _ (astObjs_append h4 h6))
  | .packageBody n l, h => by
    simp only [okDecl] at h
    obtain ⟨os, h1, h2⟩ := decls_eval hA hB l h
    refine ⟨_, by simp only [visitDecl, h1, bind, Except.bind, pure, Except.pure, Bool.false_eq_true, if_false]; rfl, ?_⟩
    simp only [evDecl]
    exact astObjs_one (by simp [astObj, h2])
  | .component n g p, h => by
    simp only [okDecl] at h
    obtain ⟨gs, h1, h2⟩ := intfs_eval (B := B) hA g h.1
    obtain ⟨ps, h3, h4⟩ := intfs_eval (B := B) hA p h.2
    refine ⟨_, by simp only [visitDecl, visitIntfsH, h1, h3, bind, Except.bind, pure, Except.pure, Bool.false_eq_true, if_false]; rfl, ?_⟩
    simp only [evDecl]
    exact astObjs_one (by simp [astObj, h2, h4])
  | .subInst _, h => by simp [okDecl] at h
  | .packageInst _, h => by simp [okDecl] at h
  | .file _ _, h => by simp [okDecl] at h
  | .attrDecl _, h => by simp [okDecl] at h
  | .attrSpec _, h => by simp [okDecl] at h
  | .groupTemplate _, h => by simp [okDecl] at h
  | .group _, h => by simp [okDecl] at h
  | .disconnect, h => by simp [okDecl] at h
  | .configSpec, h => by simp [okDecl] at h
theorem decls_eval (hA : Agrees A leaf) (hB : SAgrees B leaf) : ∀ l : List Decl, okDecls l →
    ∃ os, visitDecls false l = .ok os ∧ astObjs A B leaf os = some (evDecls A B l)
  | [], _ => ⟨[], by simp [visitDecls], by simp [astObjs, evDecls]⟩
  | d :: l, h => by
    simp only [okDecls] at h
    obtain ⟨os, h1, h2⟩ := decl_eval hA hB d h.1
    obtain ⟨ls, h3, h4⟩ := decls_eval hA hB l h.2
    exact ⟨os ++ ls, by simp only [visitDecls, h1, h3, bind, Except.bind, pure, Except.pure], by simpa [evDecls] using astObjs_append h2 h4⟩
end

/-! ## Concurrent statements -/

theorem name_notSymb {n : Name} {e : Expr} (h : visitName n = .ok e) (p : Option CodePos) (k : Symb) : e ≠ .symb p k := by
  cases n with
  | lit l =>
    simp only [visitName] at h
    cases l with
    | ident t => cases h; simp
    | opSymbol t => simp only [visitNameLit] at h; obtain ⟨s, -, h⟩ := bind_ok h; cases h; simp
    | chr t => simp only [visitNameLit] at h; obtain ⟨s, -, h⟩ := bind_ok h; cases h; simp
  | external => simp only [visitName] at h; cases h; simp
  | slice n r => simp only [visitName] at h; obtain ⟨a, -, h⟩ := bind_ok h; obtain ⟨b, -, h⟩ := bind_ok h; cases h; simp [Expr.mkBin]
  | attr n sg d => simp only [visitName] at h; obtain ⟨a, -, h⟩ := bind_ok h; cases h; simp [Expr.mkBin]
  | dot n s => simp only [visitName] at h; obtain ⟨a, -, h⟩ := bind_ok h; obtain ⟨b, -, h⟩ := bind_ok h; cases h; simp [Expr.mkBin]
  | assoc n l => simp only [visitName] at h; obtain ⟨a, -, h⟩ := bind_ok h; obtain ⟨b, -, h⟩ := bind_ok h; cases h; simp [Expr.mkIndex]

theorem sens_eval (hA : Agrees A leaf) {s : ProcSens} (h : okSens s) :
    ∃ r, visitProcSens s = .ok r ∧ astSens A leaf r = some (evSens A s) := by
  cases s with
  | none => exact ⟨none, rfl, rfl⟩
  | all => exact ⟨_, rfl, rfl⟩
  | names l =>
    obtain ⟨r, h1, h2⟩ := names_eval hA l h
    refine ⟨some r, by simp only [visitProcSens, h1, bind, Except.bind, pure, Except.pure], ?_⟩
    unfold astSens
    split
    · contradiction
    · rename_i p heq
      cases heq
      cases l with
      | nil => simp [visitNames] at h1
      | cons n l =>
        simp only [visitNames] at h1
        obtain ⟨a, ha, h1⟩ := bind_ok h1
        obtain ⟨b, -, h1⟩ := bind_ok h1
        cases h1
        exact absurd rfl (name_notSymb ha p .ALL)
    · rename_i heq
      cases heq
      simp [h2, evSens]

theorem StmOk.pushLabel {o : Obj} {ls : List Str} {v : S} (h : StmOk A B leaf o ls v) (l : Str) :
    astObj A B leaf (pushLabel l o) = withLabel B (l :: ls) (some v) := by
  obtain ⟨h1, h2⟩ := h
  rw [Verif.Vhdl.pushLabel, mapInfo_const _ h1, h2]

theorem StmOk.plain {o : Obj} {ls : List Str} {v : S} (h : StmOk A B leaf o ls v) : astObj A B leaf o = withLabel B ls (some v) := by
  obtain ⟨h1, h2⟩ := h
  rw [← mapInfo_self h1, h2]

/-- The pointer `dst` is usable for the remaining choices. -/
def SelOk (dst0 : Expr) (st : SelSt) : Prop := st.cases ≠ [] ∨ st.dst = dst0

theorem selChoices_eval (hA : Agrees A leaf) {dst0 : Expr} {vd : V} (hd : astEval A leaf dst0 = some vd) {w : Waveform} (hw : okWave w) :
    ∀ (ch : List Choice) (el : List Expr) (st : SelSt),
    List.Forall₂ (fun c e => visitChoice c = .ok e ∧ astEval A leaf e = some (evChoice A c)) ch el →
    nOthers ch.dropLast = 0 → (ch = [] ∨ SelOk dst0 st) →
    ∃ bs d x, selChoices dst0 w el st = .ok { dst := x, cases := st.cases ++ bs, dflt := d } ∧
      astBranches A B leaf bs = some ((ch.filter fun c => !Choice.isOthers c).map fun c => (evChoice A c, B.sig vd (evWaveform A w))) ∧
      DfltOk A B leaf (nOthers ch) st.dflt d (if ch.any Choice.isOthers then some (B.sig vd (evWaveform A w)) else none) ∧
      (nOthers ch = 0 → SelOk dst0 st → SelOk dst0 { dst := x, cases := st.cases ++ bs, dflt := d })
  | [], _, st, .nil, _, _ => ⟨[], st.dflt, st.dst, by simp [selChoices], by simp [astBranches], .inl ⟨rfl, rfl, rfl⟩, by simp⟩
  | c :: l, e :: el, st, .cons ⟨h1, h2⟩ h3, hn, hs => by
    have hs : SelOk dst0 st := by rcases hs with h | h; · cases h
                                  · exact h
    have ho := notOthers_choice h1
    obtain ⟨we, hw1, hw2⟩ := wave_eval hA hw
    have hdst : ∃ x, selDst dst0 st = Except.ok x ∧ astEval A leaf x = some vd := by
      unfold selDst
      cases hc : st.cases with
      | nil =>
        rcases hs with h | h
        · exact absurd hc h
        · exact ⟨st.dst, rfl, by rw [h]; exact hd⟩
      | cons b bs => exact clone_eval dst0 vd hd
    obtain ⟨x, hx1, hx2⟩ := hdst
    have ha := mkAssign_ok hx2 hw2 false
    have hae : astObj A B leaf (.assign {} x we .null none false) = some (B.sig vd (evWaveform A w)) := by
      simpa [withLabel] using (assign_eval (B := B) hx2 hw2 false).plain
    cases hc : Choice.isOthers c with
    | false =>
      have hl : nOthers (c :: l) = nOthers l := by simp [nOthers, hc]
      have hn' : nOthers l.dropLast = 0 := by
        cases l with
        | nil => rfl
        | cons c' l => simpa [nOthers, hc] using hn
      obtain ⟨bs, d, y, hb1, hb2, hb3, hb4⟩ := selChoices_eval hA hd hw l el
        { st with dst := .null, cases := st.cases ++ [.mk e (.assign {} x we .null none false)] } h3 hn' (.inr (.inl (by simp)))
      refine ⟨.mk e (.assign {} x we .null none false) :: bs, d, y, ?_, ?_, ?_, ?_⟩
      · simp only [selChoices, hw1, hx1, ha, ho, hc, Bool.false_eq_true, if_false, bind, Except.bind]
        rw [hb1]; simp
      · simp [astBranches, h2, hae, hb2, hc]
      · rw [hl]; simpa [hc] using hb3
      · intro _ _; left; simp
    | true =>
      cases l with
      | cons c' l => simp [nOthers, hc] at hn
      | nil =>
        cases h3
        refine ⟨[], .assign {} x we .null none false, .null, ?_, ?_, ?_, ?_⟩
        · simp only [selChoices, hw1, hx1, ha, ho, hc, if_true, bind, Except.bind]; simp
        · simp [astBranches, hc]
        · right; exact ⟨by simp [nOthers, hc], _, by simp [hc], hae⟩
        · intro h; simp [nOthers, hc] at h

theorem nOthers_dropLast {l₁ l₂ : List Choice} (h : nOthers (l₁ ++ l₂).dropLast = 0) :
    nOthers l₁.dropLast = 0 ∧ nOthers l₂.dropLast = 0 ∧ (l₂ = [] ∨ nOthers l₁ = 0) := by
  cases l₂ with
  | nil => exact ⟨by simpa using h, rfl, .inl rfl⟩
  | cons c l =>
    rw [List.dropLast_append_of_ne_nil (by simp), nOthers_append] at h
    refine ⟨?_, by omega, .inr (by omega)⟩
    have h1 : nOthers l₁ = 0 := by omega
    simp only [nOthers] at h1 ⊢
    have h2 := (List.dropLast_sublist l₁).filter Choice.isOthers |>.length_le
    omega

theorem selWaves_eval (hA : Agrees A leaf) {dst0 : Expr} {vd : V} (hd : astEval A leaf dst0 = some vd) :
    ∀ (l : List (Waveform × List Choice)) (st : SelSt), (∀ p ∈ l, okWave p.1 ∧ okChoices p.2) →
    nOthers (l.flatMap (·.2)).dropLast = 0 → (l.flatMap (·.2) = [] ∨ SelOk dst0 st) →
    ∃ bs d x, selWaves dst0 l st = .ok { dst := x, cases := st.cases ++ bs, dflt := d } ∧
      astBranches A B leaf bs = some (evAlts A (l.map fun p => (p.2, B.sig vd (evWaveform A p.1)))) ∧
      DfltOk A B leaf (nOthers (l.flatMap (·.2))) st.dflt d (evOthers (l.map fun p => (p.2, B.sig vd (evWaveform A p.1))))
  | [], st, _, _, _ => ⟨[], st.dflt, st.dst, by simp [selWaves], by simp [astBranches, evAlts], .inl ⟨rfl, rfl, rfl⟩⟩
  | (w, ch) :: l, st, h, hn, hs => by
    obtain ⟨hw, hch⟩ := h (w, ch) (by simp)
    obtain ⟨el, hc1, hc2⟩ := choices_list hA ch hch
    simp only [List.flatMap_cons] at hn hs
    obtain ⟨hn1, hn2, hn3⟩ := nOthers_dropLast hn
    obtain ⟨bs, d, x, h1, h2, h3, h4⟩ := selChoices_eval (B := B) hA hd hw ch el st hc2 hn1
      (hs.imp (fun h => (List.append_eq_nil_iff.1 h).1) id)
    obtain ⟨bs', d', x', h5, h6, h7⟩ := selWaves_eval hA hd l { dst := x, cases := st.cases ++ bs, dflt := d }
      (fun p hp => h p (by simp [hp])) hn2 (by
        rcases hn3 with hn3 | hn3
        · exact .inl hn3
        · rcases hs with hs | hs
          · exact .inl (List.append_eq_nil_iff.1 hs).2
          · exact .inr (h4 hn3 hs))
    refine ⟨bs ++ bs', d', x', ?_, ?_, ?_⟩
    · simp only [selWaves, hc1, h1, bind, Except.bind]
      rw [h5]; simp
    · rw [astBranches_append h2 h6]; simp [evAlts]
    · simp only [List.flatMap_cons, nOthers_append, List.map_cons, evOthers]
      unfold DfltOk at *
      rcases h3 with ⟨h3, h8, h9⟩ | ⟨h3, v, h8, h9⟩
      · have : ch.any Choice.isOthers = false := by
          cases hh : ch.any Choice.isOthers
          · rfl
          · simp [hh] at h9
        simp only [this, Bool.false_eq_true, if_false]
        rcases h7 with ⟨h7, h10, h11⟩ | ⟨h7, v, h10, h11⟩
        · left; exact ⟨by omega, h10.trans h8, h11⟩
        · right; exact ⟨by omega, v, h10, h11⟩
      · have : ch.any Choice.isOthers = true := by
          cases hh : ch.any Choice.isOthers
          · simp [hh] at h8
          · rfl
        simp only [this, if_true] at h8 ⊢
        have h0 : l.flatMap (·.2) = [] := by
          rcases hn3 with hn3 | hn3
          · exact hn3
          · omega
        rw [h0] at h7 ⊢
        rcases h7 with ⟨-, h10, -⟩ | ⟨h7, -⟩
        · right; exact ⟨by simp [nOthers] at h3 ⊢; omega, v, h8, by simp only at h10; rw [h10]; exact h9⟩
        · simp [nOthers] at h7

theorem conckind_eval (hA : Agrees A leaf) (hB : SAgrees B leaf) {k : ConcKind} (h : okConcKind k) :
    ∃ o, visitConcKind false k = .ok o ∧ StmOk A B leaf o [] (evConcKind A B k) := by
  cases k with
  | process pp sens ds ss =>
    simp only [okConcKind] at h
    obtain ⟨rfl, h1, h2, h3⟩ := h
    obtain ⟨r, hr1, hr2⟩ := sens_eval hA h1
    obtain ⟨os, hd1, hd2⟩ := decls_eval hA hB ds h2
    obtain ⟨bs, hs1, -, hs2⟩ := seqs_eval hA hB ss h3
    refine ⟨.process {} .NONE r (.block {} .SEQ (os ++ bs)),
      by simp only [visitConcKind, visitProcess, hr1, hd1, hs1, bind, Except.bind, pure, Except.pure], rfl, fun ls' => ?_⟩
    simp [Obj.mapInfo, astObj, hr2, astObjs_append hd2 hs2, evConcKind, evFlag]
  | call pp n =>
    simp only [okConcKind] at h
    obtain ⟨rfl, h⟩ := h
    obtain ⟨e, h1, h2⟩ := call_eval (B := B) hA h
    exact ⟨.expr {} e, by simp only [visitConcKind, h1, bind, Except.bind, pure, Except.pure], by simpa [evConcKind, evFlag] using expr_eval h2⟩
  | assert_ pp c r s =>
    simp only [okConcKind] at h
    obtain ⟨rfl, h⟩ := h
    obtain ⟨o, h1, h2⟩ := assertion_eval (B := B) hA h.1 h.2.1 h.2.2.1 h.2.2.2
    exact ⟨o, by simpa [visitConcKind] using h1, by simpa [evConcKind, evFlag] using h2⟩
  | assign pp g t d w =>
    simp only [okConcKind] at h
    obtain ⟨rfl, rfl, rfl, h⟩ := h
    obtain ⟨ed, hd1, hd2⟩ := target_eval hA h.1
    obtain ⟨es, hs1, hs2⟩ := wave_eval hA h.2
    exact ⟨_, by simp only [visitConcKind, hd1, hs1, bind, Except.bind]; exact mkAssign_ok hd2 hs2 false,
      by simpa [evConcKind, evFlag, evDelay] using assign_eval hd2 hs2 false⟩
  | assignCond pp g t d c =>
    simp only [okConcKind] at h
    obtain ⟨rfl, rfl, rfl, h⟩ := h
    obtain ⟨ed, hd1, hd2⟩ := target_eval hA h.1
    obtain ⟨es, hs1, hs2⟩ := C38_meaning_partial A leaf hA c h.2.1 h.2.2
    exact ⟨_, by simp only [visitConcKind, hd1, hs1, bind, Except.bind]; exact mkAssign_ok hd2 hs2 false,
      by simpa [evConcKind, evFlag, evDelay] using assign_eval hd2 hs2 false⟩
  | assignSel pp g e q t d l =>
    simp only [okConcKind] at h
    obtain ⟨rfl, rfl, rfl, rfl, he, ht, hl, hn⟩ := h
    obtain ⟨sel, he1, he2, -⟩ := expression_eval hA e he
    obtain ⟨ed, hd1, hd2⟩ := target_eval hA ht
    obtain ⟨bs, df, x, h1, h2, h3⟩ := selWaves_eval (B := B) hA hd2 l { dst := ed } hl hn (.inr (.inr rfl))
    refine ⟨.case {} .NONE .CASE sel bs df, ?_, rfl, fun ls' => ?_⟩
    · simp only [visitConcKind, visitSelected, he1, hd1, h1, bind, Except.bind, pure, Except.pure, List.nil_append]
    · have hdf : optObj df (astObj A B leaf df) = some (evOthers (l.map fun p => (p.2, B.sig (evTarget A t) (evWaveform A p.1)))) := by
        rcases h3 with ⟨-, rfl, h4⟩ | ⟨-, v, h4, h5⟩
        · rw [h4]; rfl
        · rw [h4]; exact optObj_some h5
      simp only [Obj.mapInfo, astObj, he2, h2, hdf, Option.bind_eq_bind, Option.bind_some, pure, evConcKind, evFlag, evSigAssign, evDelay,
        Bool.false_eq_true, if_false]

theorem map_eval (hA : Agrees A leaf) {m : Option (List Assoc)} (h : okMap m) :
    ∃ e, visitMap m = .ok e ∧ astEvals A leaf e = some (evMap A m) := by
  cases m with
  | none => exact ⟨[], rfl, rfl⟩
  | some l => exact assocs_eval hA l (h l rfl)

theorem inst_eval (hA : Agrees A leaf) (label : Str) {u : InstUnit} {g p : Option (List Assoc)} (hu : okUnit u) (hg : okMap g) (hp : okMap p) :
    ∃ o, visitInst label u g p = .ok o ∧
      astObj A B leaf o = some (B.inst label (evInstKind u) (evInstUnit A u) (evMap A g) (evMap A p)) := by
  cases u with
  | component kw n =>
    obtain ⟨e, h1, h2, -⟩ := name_eval hA n hu
    obtain ⟨eg, h3, h4⟩ := map_eval hA hg
    obtain ⟨ep, h5, h6⟩ := map_eval hA hp
    exact ⟨_, by simp only [visitInst, InstUnit.unit, h1, h3, h5, bind, Except.bind, pure, Except.pure]; rfl,
      by simp [astObj, h2, h4, h6, evInstKind, evInstUnit]⟩
  | entity n a => cases hu
  | config n => cases hu

theorem genBody_eval (hB : SAgrees B leaf) {ds : List Decl} {bg : Bool} {l : List Obj} {vs : List S} (h : astObjs A B leaf l = some vs) :
    astObj A B leaf (mkGenBody ds bg l) = some (B.gbody vs) := by
  unfold mkGenBody
  split
  · simp only [astObjs, Option.bind_eq_bind] at h
    obtain ⟨a, ha, h⟩ := Option.bind_eq_some_iff.1 h
    simp only [Option.bind_some, pure, Option.some.injEq] at h
    subst h
    rw [ha, hB.one]
  · simp [astObj, h]

theorem genConds_label : ∀ l : List GenCond, okGenConds l → (l.map GenCond.label).filterMap id = []
  | [], _ => rfl
  | .mk lb c b :: l, h => by
    simp only [okGenConds, okGenCond] at h
    obtain ⟨⟨rfl, -⟩, h⟩ := h
    simpa [GenCond.label] using genConds_label l h

theorem ifGenLabels_end {c : GenCond} {el : List GenCond} {f : GenElse} (hc : okGenCond c) (he : okGenConds el) (hf : okGenElse f)
    (endl : Option Str) : ifGenLabels c el f endl = endl.toList := by
  obtain ⟨lb, x, b⟩ := c
  simp only [okGenCond] at hc
  obtain ⟨rfl, -⟩ := hc
  have hf : f.label = none := by
    cases f with
    | none => rfl
    | some l b => simp only [okGenElse] at hf; exact hf.1
  have := genConds_label el he
  rw [ifGenLabels, hf, List.filterMap_append]
  have h0 : List.filterMap id (GenCond.label (.mk none x b) :: el.map GenCond.label) = [] := by
    rw [List.filterMap_cons_none (by rfl), this]
  rw [h0]
  cases endl <;> rfl

theorem branches_eval {o : Obj} {v : S} (ho : astObj A B leaf o = some v) : ∀ (ch : List Choice) (el : List Expr),
    List.Forall₂ (fun c e => visitChoice c = .ok e ∧ astEval A leaf e = some (evChoice A c)) ch el →
    astBranches A B leaf (el.map fun c => .mk c o) = some (ch.map fun c => (evChoice A c, v))
  | [], _, .nil => by simp [astBranches]
  | c :: l, e :: el, .cons h1 h2 => by simp [astBranches, h1.2, ho, branches_eval ho l el h2]

theorem filter_noOthers {l : List Choice} (h : nOthers l = 0) : (l.filter fun c => !Choice.isOthers c) = l ∧ l.any Choice.isOthers = false := by
  simp only [nOthers, List.length_eq_zero_iff, List.filter_eq_nil_iff] at h
  constructor
  · rw [List.filter_eq_self]; intro c hc; simp [h c hc]
  · rw [List.any_eq_false]; exact h

/-- The condition of an alternative. -/
def GenCond.cond : GenCond → Expression
  | .mk _ c _ => c

/-- The body of an alternative. -/
def GenCond.body : GenCond → GenBody
  | .mk _ _ b => b

mutual
theorem conc_eval (hA : Agrees A leaf) (hB : SAgrees B leaf) : ∀ c : Conc, okConc c →
    ∃ o, visitConc false c = .ok o ∧ astObj A B leaf o = some (evConc A B c)
  | .plain none s, h => by
    simp only [okConc] at h
    obtain ⟨o, h1, h2⟩ := conckind_eval hA hB h
    exact ⟨o, by simpa [visitConc] using h1, by simpa [evConc, evLabel, withLabel] using h2.plain⟩
  | .plain (some l) s, h => by
    simp only [okConc] at h
    obtain ⟨o, h1, h2⟩ := conckind_eval hA hB h
    exact ⟨_, by simp only [visitConc, h1, bind, Except.bind, pure, Except.pure]; rfl, by simpa [evConc, evLabel, withLabel] using h2.pushLabel l⟩
  | .block label g gs ps ds ss, h => by
    simp only [okConc] at h
    obtain ⟨rfl, rfl, rfl, hd, hs⟩ := h
    obtain ⟨os, h1, h2⟩ := decls_eval hA hB ds hd
    obtain ⟨bs, h3, h4⟩ := concs_eval hA hB ss hs
    refine ⟨_, by simp only [visitConc, h1, h3, bind, Except.bind, pure, Except.pure]; rfl, ?_⟩
    simp [pushLabel, Obj.mapInfo, astObj, astObjs_append h2 h4, withLabel, evConc]
  | .inst label u g p, h => by
    simp only [okConc] at h
    obtain ⟨o, h1, h2⟩ := inst_eval (B := B) hA label h.1 h.2.1 h.2.2
    exact ⟨o, by simpa [visitConc] using h1, by simpa [evConc] using h2⟩
  | .forGen label i d b endl, h => by
    simp only [okConc] at h
    obtain ⟨e, h1, h2⟩ := discr_eval hA d h.1
    obtain ⟨o, h3, h4⟩ := gbody_eval hA hB b h.2.1
    refine ⟨_, by simp only [visitConc, h1, h3, bind, Except.bind, pure, Except.pure]; rfl, ?_⟩
    rcases h.2.2 with rfl | rfl <;>
      simp [pushLabel, appendLabel, Obj.mapInfo, astObj, h2, h4, withLabel, evConc]
  | .ifGen label c el f endl, h => by
    simp only [okConc] at h
    obtain ⟨r, h1, h2, h3⟩ := gcond_eval hA hB c h.1
    obtain ⟨bs, h4, h5⟩ := gconds_eval hA hB el h.2.1
    obtain ⟨fo, h6, h7⟩ := gelse_eval hA hB f h.2.2.1
    refine ⟨_, by simp only [visitConc, h1, h4, h6, ifGenLabels_end h.1 h.2.1 h.2.2.1, bind, Except.bind, pure, Except.pure]; rfl, ?_⟩
    obtain ⟨lb, x, b⟩ := c
    have hl := h.1
    simp only [okGenCond] at hl
    obtain ⟨rfl, -⟩ := hl
    simp only [GenCond.cond, GenCond.body] at h2 h3
    rcases h.2.2.2 with rfl | rfl <;>
      simp [pushLabel, Obj.mapInfo, astObj, h2, h3, h7, h5, withLabel, evConc, evGenCond, evAltLabel]
  | .caseGen label e alts endl, h => by
    simp only [okConc] at h
    obtain ⟨sel, h1, h2, -⟩ := expression_eval hA e h.1
    obtain ⟨bs, h3, h4, h5⟩ := galts_eval hA hB alts h.2.1 h.2.2
    refine ⟨_, by simp only [visitConc, h1, h3, bind, Except.bind, pure, Except.pure]; rfl, ?_⟩
    simp [pushLabel, Obj.mapInfo, astObj, h2, h4, h5, optObj, withLabel, evConc]
theorem concs_eval (hA : Agrees A leaf) (hB : SAgrees B leaf) : ∀ l : List Conc, okConcs l →
    ∃ os, visitConcs false l = .ok os ∧ astObjs A B leaf os = some (evConcs A B l)
  | [], _ => ⟨[], by simp [visitConcs], by simp [astObjs, evConcs]⟩
  | c :: l, h => by
    simp only [okConcs] at h
    obtain ⟨o, h1, h2⟩ := conc_eval hA hB c h.1
    obtain ⟨os, h3, h4⟩ := concs_eval hA hB l h.2
    exact ⟨o :: os, by simp only [visitConcs, h1, h3, bind, Except.bind, pure, Except.pure], by simp [astObjs, h2, h4, evConcs]⟩
theorem gcond_eval (hA : Agrees A leaf) (hB : SAgrees B leaf) : ∀ c : GenCond, okGenCond c →
    ∃ r, visitGenCond false c = .ok r ∧ astEval A leaf r.1 = some (evExpression A c.cond) ∧ astObj A B leaf r.2 = some (evGenBody A B c.body)
  | .mk l c b, h => by
    simp only [okGenCond] at h
    obtain ⟨e, h1, h2, -⟩ := expression_eval hA c h.2.1
    obtain ⟨o, h3, h4⟩ := gbody_eval hA hB b h.2.2
    exact ⟨(e, o), by simp only [visitGenCond, h1, h3, bind, Except.bind, pure, Except.pure], h2, h4⟩
theorem gconds_eval (hA : Agrees A leaf) (hB : SAgrees B leaf) : ∀ l : List GenCond, okGenConds l →
    ∃ bs, visitGenConds false l = .ok bs ∧ ∀ f, astElifs A B leaf true bs f = some (evGenConds A B l f)
  | [], _ => ⟨[], by simp [visitGenConds], fun f => by simp [astElifs, evGenConds]⟩
  | .mk lb c b :: l, h => by
    simp only [okGenConds] at h
    obtain ⟨r, h1, h2, h3⟩ := gcond_eval hA hB (.mk lb c b) h.1
    obtain ⟨bs, h4, h5⟩ := gconds_eval hA hB l h.2
    have hl := h.1
    simp only [okGenCond] at hl
    obtain ⟨rfl, -⟩ := hl
    refine ⟨_, by simp only [visitGenConds, h1, h4, bind, Except.bind, pure, Except.pure]; rfl, fun f => ?_⟩
    simp only [GenCond.cond, GenCond.body] at h2 h3
    simp [astElifs, h2, h3, h5, evGenConds, evGenCond, evAltLabel]
theorem gelse_eval (hA : Agrees A leaf) (hB : SAgrees B leaf) : ∀ f : GenElse, okGenElse f →
    ∃ o, visitGenElse false f = .ok o ∧ optObj o (astObj A B leaf o) = some (evGenElse A B f)
  | .none, _ => ⟨.null, by simp [visitGenElse], by simp [optObj, evGenElse]⟩
  | .some l b, h => by
    simp only [okGenElse] at h
    obtain ⟨rfl, h⟩ := h
    obtain ⟨o, h1, h2⟩ := gbody_eval hA hB b h
    exact ⟨o, by simpa [visitGenElse] using h1, by rw [optObj_some h2]; simp [evGenElse, evAltLabel]⟩
theorem galts_eval (hA : Agrees A leaf) (hB : SAgrees B leaf) : ∀ l : List GenAlt, okGenAlts l → nOthers (genChoices l) = 0 →
    ∃ bs, visitGenAlts false l = .ok bs ∧ astBranches A B leaf bs = some (evAlts A (evGenAlts A B l)) ∧ evOthers (evGenAlts A B l) = none
  | [], _, _ => ⟨[], by simp [visitGenAlts], by simp [astBranches, evAlts, evGenAlts], by simp [evOthers, evGenAlts]⟩
  | .mk lb ch b :: r, h, hn => by
    simp only [okGenAlts] at h
    obtain ⟨rfl, h⟩ := h
    simp only [genChoices, nOthers_append] at hn
    obtain ⟨el, hc1, hc2⟩ := choices_list hA ch h.1
    obtain ⟨o, h1, h2⟩ := gbody_eval hA hB b h.2.1
    obtain ⟨bs, h3, h4, h5⟩ := galts_eval hA hB r h.2.2 (by omega)
    obtain ⟨hf1, hf2⟩ := filter_noOthers (l := ch) (by omega)
    refine ⟨el.map (fun c => .mk c o) ++ bs, ?_, ?_, ?_⟩
    · simp only [visitGenAlts, hc1, bind, Except.bind]
      cases el with
      | nil => simp [h3, pure, Except.pure]
      | cons e el => simp [h1, h3, pure, Except.pure]
    · rw [astBranches_append (branches_eval h2 ch el hc2) h4]
      simp [evGenAlts, evAlts, hf1, evAltLabel]
    · simp [evGenAlts, evOthers, hf2, h5]
theorem gbody_eval (hA : Agrees A leaf) (hB : SAgrees B leaf) : ∀ b : GenBody, okGenBody b →
    ∃ o, visitGenBody false b = .ok o ∧ astObj A B leaf o = some (evGenBody A B b)
  | .mk ds bg ss, h => by
    simp only [okGenBody] at h
    obtain ⟨os, h1, h2⟩ := decls_eval hA hB ds h.1
    obtain ⟨bs, h3, h4⟩ := concs_eval hA hB ss h.2
    exact ⟨_, by simp only [visitGenBody, h1, h3, bind, Except.bind, pure, Except.pure]; rfl,
      by simpa [evGenBody] using genBody_eval hB (astObjs_append h2 h4)⟩
end

/-! ## Design units -/

theorem astTops_append {l₁ l₂ : List Obj} {v₁ v₂ : List S} (h₁ : astTops A B leaf l₁ = some v₁)
    (h₂ : astTops A B leaf l₂ = some v₂) : astTops A B leaf (l₁ ++ l₂) = some (v₁ ++ v₂) := by
  induction l₁ generalizing v₁ with
  | nil => simp [astTops] at h₁; subst h₁; simpa using h₂
  | cons e l ih =>
    simp only [astTops, Option.bind_eq_bind] at h₁
    obtain ⟨a, ha, h₁⟩ := Option.bind_eq_some_iff.1 h₁
    obtain ⟨b, hb, h₁⟩ := Option.bind_eq_some_iff.1 h₁
    simp only [pure, Option.some.injEq] at h₁
    subst h₁
    simp [astTops, ha, ih hb]

theorem contextItem_eval (hA : Agrees A leaf) {i : ContextItem} (h : okContextItem i) :
    ∃ os, visitContextItem i = .ok os ∧ astTops A B leaf os = some (evContextItem A B i) := by
  cases i with
  | library l =>
    refine ⟨_, rfl, ?_⟩
    simp only [evContextItem]
    clear h
    induction l with
    | nil => rfl
    | cons n l ih => simp [astTops, astTop, astObj, ih]
  | use l =>
    have key : ∀ l : List SelName, (∀ n ∈ l, okSelName n) →
        ∃ os, visitUse l = .ok os ∧ astTops A B leaf os = some (l.map fun n => B.use (evSelName A n)) := by
      intro l
      induction l with
      | nil => intro _; exact ⟨[], rfl, rfl⟩
      | cons n l ih =>
        intro h
        obtain ⟨e, h1, h2⟩ := suffixes_eval hA n.rest (.id none n.head) [A.lit (.ident n.head)] (h n (by simp)) (by simp)
          (by simpa [flattenDot] using astEvals_one (ident_eval hA n.head))
        obtain ⟨os, h3, h4⟩ := ih fun m hm => h m (by simp [hm])
        refine ⟨_, by simp only [visitUse, visitSelName, h1, h3, bind, Except.bind, pure, Except.pure]; rfl, ?_⟩
        simp [astTops, astTop, astObj, h2, h4, evSelName]
    exact key l h
  | contextRef l => cases h

theorem contextItems_eval (hA : Agrees A leaf) : ∀ l : List ContextItem, (∀ i ∈ l, okContextItem i) →
    ∃ os, visitContextItems l = .ok os ∧ astTops A B leaf os = some (l.flatMap (evContextItem A B))
  | [], _ => ⟨[], rfl, rfl⟩
  | i :: l, h => by
    obtain ⟨os, h1, h2⟩ := contextItem_eval (B := B) hA (h i (by simp))
    obtain ⟨ls, h3, h4⟩ := contextItems_eval hA l fun j hj => h j (by simp [hj])
    exact ⟨os ++ ls, by simp only [visitContextItems, h1, h3, bind, Except.bind, pure, Except.pure], by simpa using astTops_append h2 h4⟩

theorem libUnit_eval (hA : Agrees A leaf) (hB : SAgrees B leaf) {u : LibUnit} (h : okLibUnit u) :
    ∃ os, visitLibUnit false u = .ok os ∧ astTops A B leaf os = some (evLibUnit A B u) := by
  cases u with
  | entity n g p ds ss =>
    simp only [okLibUnit] at h
    obtain ⟨hg, hp, hd, rfl⟩ := h
    obtain ⟨eg, h1, h2⟩ := intfs_eval (B := B) hA g hg
    obtain ⟨ep, h3, h4⟩ := intfs_eval (B := B) hA p hp
    obtain ⟨ed, h5, h6⟩ := decls_eval hA hB ds hd
    refine ⟨_, by simp only [visitLibUnit, visitIntfsH, h1, h3, h5, bind, Except.bind, pure, Except.pure, Bool.false_eq_true, if_false]; rfl, ?_⟩
    simp [astTops, astTop, h2, h4, h6, evLibUnit]
  | package n g l =>
    simp only [okLibUnit] at h
    obtain ⟨rfl, h⟩ := h
    obtain ⟨os, h1, h2⟩ := decls_eval hA hB l h
    refine ⟨_, by simp only [visitLibUnit, visitDecl, h1, bind, Except.bind, pure, Except.pure, Bool.false_eq_true, if_false]; rfl, ?_⟩
    simp [astTops, astTop, astObj, h2, evLibUnit]
  | arch n e ds ss =>
    simp only [okLibUnit] at h
    obtain ⟨en, h1, h2, -⟩ := name_eval hA e h.1
    obtain ⟨ed, h3, h4⟩ := decls_eval hA hB ds h.2.1
    obtain ⟨es, h5, h6⟩ := concs_eval hA hB ss h.2.2
    refine ⟨_, by simp only [visitLibUnit, h1, h3, h5, bind, Except.bind, pure, Except.pure, Bool.false_eq_true, if_false]; rfl, ?_⟩
    simp [astTops, astTop, h2, astObjs_append h4 h6, evLibUnit]
  | packageBody n l =>
    simp only [okLibUnit] at h
    obtain ⟨os, h1, h2⟩ := decls_eval hA hB l h
    refine ⟨_, by simp only [visitLibUnit, visitDecl, h1, bind, Except.bind, pure, Except.pure, Bool.false_eq_true, if_false]; rfl, ?_⟩
    simp [astTops, astTop, astObj, h2, evLibUnit]
  | config n => cases h
  | packageInst n => cases h
  | context n => cases h

theorem designFile_eval (hA : Agrees A leaf) (hB : SAgrees B leaf) : ∀ l : List DesignUnit, (∀ u ∈ l, okDesignUnit u) →
    ∃ os, visitDesignFile false l = .ok os ∧ astTops A B leaf os = some (evDesignFile A B l)
  | [], _ => ⟨[], rfl, rfl⟩
  | u :: l, h => by
    obtain ⟨c, h1, h2⟩ := contextItems_eval (B := B) hA u.ctx (h u (by simp)).1
    obtain ⟨o, h3, h4⟩ := libUnit_eval hA hB (h u (by simp)).2
    obtain ⟨os, h5, h6⟩ := designFile_eval hA hB l fun v hv => h v (by simp [hv])
    exact ⟨c ++ o ++ os, by simp only [visitDesignFile, visitDesignUnit, h1, h3, h5, bind, Except.bind, pure, Except.pure],
      by simpa [evDesignFile] using astTops_append (astTops_append h2 h4) h6⟩

end Verif.Vhdl
