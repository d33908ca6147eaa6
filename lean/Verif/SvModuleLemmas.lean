import Verif.SvGenLemmas
import Verif.Props.SvPorts
/-!
# SystemVerilog modules with ANSI ports: the supported fragment, and the induction over the parse tree
-/
namespace Verif.Sv
open Verif Verif.Spec.Sv

/-! ## The supported fragment -/

def okGenericDecl : ParamDecl → Prop
  | .type _ => False
  | .val t l => (∀ p ∈ l, okParam p) ∧ okTypeDims t true

/-- No parameter without keyword after a local parameter. -/
def okPortParams (loc : Bool) : List PortParam → Prop
  | [] => True
  | .type _ :: _ => False
  | .param d :: l => okGenericDecl d ∧ okPortParams false l
  | .localparam d :: l => okGenericDecl d ∧ okPortParams true l
  | .typed t ps :: l => loc = false ∧ okDType t ∧ (∀ p ∈ ps, okParam p) ∧ okPortParams loc l

/-- Nothing after a list of parameters without keyword. -/
def okHdrParams : Option ParamPorts → Prop
  | none => True
  | some (.assigns l rest) => (∀ p ∈ l, okParam p) ∧ rest = []
  | some (.decls l) => okPortParams false l

def okNetOrVar (t : NetOrVar) (noDims : Bool) : Prop :=
  match t with
  | .interconnect _ => False
  | .var t => okTypeI (c! "wire") t noDims
  | .net kw t => okTypeI kw t noDims
  | .type t => okTypeI (c! "wire") (some t) noDims

def isVar : NetOrVar → Bool
  | .var _ => true
  | _ => false

/-- `P`: the condition on dimensions after the name if the type of the port before is used; `var`: it is a variable. -/
def okAnsiPorts (P : Bool → Prop) (var : Bool) : List AnsiPort → Prop
  | [] => True
  | .expl .. :: _ => False
  | .decl h n dims v :: l => okIdent n ∧ okVDims dims ∧ okOptExp v ∧
    match h with
    | .none => var = false ∧ P dims.isEmpty ∧ okAnsiPorts P var l
    | .dir _ none => okAnsiPorts (fun _ => True) false l
    | .dir _ (some t) => okNetOrVar t dims.isEmpty ∧ okAnsiPorts (okNetOrVar t) (isVar t) l
    | .type t => okNetOrVar t dims.isEmpty ∧ okAnsiPorts (okNetOrVar t) (isVar t) l
    | .iface _ _ => False

/-- The condition on the dimensions after a name in a declaration of ports in the body. -/
def okDeclType (d : NonansiDecl) (noDims : Bool) : Prop :=
  match d with
  | .inout none _ => noDims = true
  | .inout (some (.interconnect _)) _ => False
  | .inout (some (.net kw t)) _ => okTypeI kw t noDims
  | .inout (some (.type t)) _ => okTypeI (c! "wire") (some t) noDims
  | .input none _ => noDims = true
  | .input (some t) _ => okNetOrVar t noDims
  | .output none _ => noDims = true
  | .output (some t) _ => okNetOrVar t noDims
  | .iface _ _ _ => False
  | .ref none _ => noDims = true
  | .ref (some (.var _)) _ => False
  | .ref (some (.type t)) _ => okTypeI (c! "wire") (some (.type t)) noDims

def okNonansiDecl (d : NonansiDecl) : Prop :=
  names d ≠ [] ∧ ∀ v ∈ names d, okIdent v.name ∧ okVDims v.dims ∧ okOptExp v.value ∧ okDeclType d v.dims.isEmpty

/-- In the old style: the header lists different names, and the body declares each of them once and no others. -/
def okHdrPorts (items : List ModItem) : HdrPorts → Prop
  | .none => bodyPortNames items = []
  | .list (.ansi l) => okAnsiPorts (fun _ => True) false l ∧ bodyPortNames items = []
  | .list (.nonansi l) => (∀ p ∈ l, ∃ i, p = plainPort i ∧ okIdent i) ∧ ((l.flatMap nonansiPortName).map identName).Nodup ∧
      ((bodyPortNames items).map identName).Perm ((l.flatMap nonansiPortName).map identName)
  | .star => False

mutual
/-- No name of the body is the name of a port; parameters in the body only without parameter list in the header. -/
def okMod : Mod → Prop
  | .mk ext h ports items => ext = false ∧ h.name.esc = false ∧ isKw h.name.text = false ∧ okHdrParams h.params ∧ okHdrPorts items ports ∧
      okModItems h.params.isSome items ∧ apart (items.flatMap modItemNames) (hdrPortNames ports)
def okModItems (hdr : Bool) : List ModItem → Prop
  | [] => True
  | .region l' :: l => okGItems l' ∧ okModItems hdr l
  | .item (.param d) :: l => hdr = false ∧ okGenericDecl d ∧ okModItems hdr l
  | .item i :: l => okGenItem i ∧ okModItems hdr l
  | .module_ m :: l => okMod m ∧ okModItems hdr l
  | .port d :: l => okNonansiDecl d ∧ okModItems hdr l
  | .other :: _ => False
end

variable {V S M : Type} {A : Alg V} {B : SAlg V S} {N : MAlg V S M} {leaf : Expr → V}

/-! ## Parameters -/

/-- The meaning of parameters. -/
def astGenerics (A : Alg V) (B : SAlg V S) (leaf : Expr → V) (l : List IdDef) : Option (List S) :=
  astStms A B leaf ((l.map defaultType).map .id)

theorem generics_append {a b : List IdDef} {va vb : List S} (ha : astGenerics A B leaf a = some va) (hb : astGenerics A B leaf b = some vb) :
    astGenerics A B leaf (a ++ b) = some (va ++ vb) := by
  unfold astGenerics
  rw [List.map_append, List.map_append]
  exact astStms_append _ _ _ _ ha hb

theorem defaultType_eq {d : IdDef} (h : d.type ≠ .null) : defaultType d = d := by
  obtain ⟨n, t, v⟩ := d
  cases t <;> first | (exact absurd rfl h) | rfl

theorem astType_ne {e : Expr} {v : V} (h : astType A B leaf e = some v) : e ≠ .null := by
  rintro rfl
  cases h

theorem paramAssigns_generic (hA : Agrees A leaf) (c : Bool) (e : Expr) (v : V) (he : astType A B leaf e = some v) (l : List ParamAssign)
    (h : ∀ p ∈ l, okParam p) :
    ∃ r, visitParamAssigns l = .ok r ∧ (∀ d ∈ r, d.type = .symb none .T_AUTO ∧ d.const = false) ∧
      astGenerics A B leaf (r.map fun d => { d with type := e, const := c }) = some (l.map (evGeneric A B c v)) := by
  induction l with
  | nil => exact ⟨[], rfl, (fun d hd => by cases hd), rfl⟩
  | cons p l ih =>
    obtain ⟨r, h1, h0, h2⟩ := ih fun x hx => h x (.tail _ hx)
    obtain ⟨n, i, h3, h4, h6⟩ := paramAssign_eval hA p (h p (.head _))
    have hd := (h p (.head _)).2.1
    refine ⟨_, by simp only [visitParamAssigns, h3, h1, bind, Except.bind, pure, Except.pure]; rfl, ?_, ?_⟩
    · intro d hd
      cases hd with
      | head => exact ⟨rfl, rfl⟩
      | tail _ hd => exact h0 d hd
    · unfold astGenerics at h2 ⊢
      simp only [List.map_cons]
      rw [defaultType_eq (astType_ne he)]
      simp only [astStms, astStm, astDecl, he, h6, h4, h2, Option.bind_eq_bind, Option.bind_some, pure, evGeneric, hd, evDims]

theorem assigns_generic (hA : Agrees A leaf) (l : List ParamAssign) (h : ∀ p ∈ l, okParam p) :
    ∃ r, visitParamAssigns l = .ok r ∧ astGenerics A B leaf r = some (l.map (evGeneric A B false B.auto)) := by
  obtain ⟨r, h1, h2, h3⟩ := paramAssigns_generic (B := B) hA false (.symb none .T_AUTO) B.auto rfl l h
  refine ⟨r, h1, ?_⟩
  rw [← h3]
  congr 1
  conv_lhs => rw [← List.map_id r]
  apply List.map_congr_left
  intro d hd
  obtain ⟨ht, hc⟩ := h2 d hd
  obtain ⟨n, t, v⟩ := d
  simp only at ht hc
  subst ht hc
  rfl

theorem typedParams_generic (hA : Agrees A leaf) (e : Expr) (v : V) (hc : e.clone = .ok e) (he : astType A B leaf e = some v)
    (l : List ParamAssign) (h : ∀ p ∈ l, okParam p) :
    ∃ r, visitTypedParams e l = .ok r ∧ (∀ d ∈ r, d.const = false) ∧ astGenerics A B leaf r = some (l.map (evGeneric A B false v)) ∧
      astGenerics A B leaf (r.map fun d => { d with const := true }) = some (l.map (evGeneric A B true v)) := by
  obtain ⟨r, h1, h2, h3⟩ := paramAssigns_generic (B := B) hA false e v he l h
  obtain ⟨r', h1', _, h3'⟩ := paramAssigns_generic (B := B) hA true e v he l h
  rw [h1] at h1'
  obtain rfl := Except.ok.inj h1'
  have hr : (r.map fun d => { d with type := e }) = r.map fun d => { d with type := e, const := false } := by
    apply List.map_congr_left
    intro d hd
    obtain ⟨_, hc⟩ := h2 d hd
    obtain ⟨n, t, v⟩ := d
    simp only at hc
    subst hc
    rfl
  refine ⟨_, visitTypedParams_eq e hc l r h1, ?_, ?_, ?_⟩
  · intro d hd
    obtain ⟨x, hx, rfl⟩ := List.mem_map.1 hd
    exact (h2 x hx).2
  · rw [hr]; exact h3
  · rw [List.map_map]; exact h3'

theorem paramDecl_generic (hA : Agrees A leaf) (d : ParamDecl) (h : okGenericDecl d) :
    ∃ r, visitParamDecl d = .ok r ∧ astGenerics A B leaf r = some (evGenericDecl A B false d) ∧
      ∃ r', visitLocalparam d = .ok r' ∧ astGenerics A B leaf r' = some (evGenericDecl A B true d) := by
  cases d with
  | type l => exact h.elim
  | val t l =>
    obtain ⟨e, h1, h2, h3, _⟩ := type_eval (B := B) hA t _ h.2
    obtain ⟨r, h4, _, h5, h6⟩ := typedParams_generic (B := B) hA e _ h2 h3 l h.1
    have h7 : visitParamDecl (.val t l) = .ok r := by simp only [visitParamDecl, h1, h4, bind, Except.bind]
    exact ⟨r, h7, h5, _, by simp only [visitLocalparam, h7, bind, Except.bind, pure, Except.pure], h6⟩

theorem portParams_generic (hA : Agrees A leaf) (l : List PortParam) : ∀ loc, okPortParams loc l →
    ∃ r, visitPortParams l = .ok r ∧ astGenerics A B leaf r = some (evPortParams A B loc l) := by
  induction l with
  | nil => intro _ _; exact ⟨[], rfl, rfl⟩
  | cons p l ih =>
    intro loc h
    cases p with
    | type ts => exact h.elim
    | param d =>
      obtain ⟨r, h1, h2, _⟩ := paramDecl_generic (B := B) hA d h.1
      obtain ⟨r', h3, h4⟩ := ih _ h.2
      exact ⟨r ++ r', by simp only [visitPortParams, visitPortParam, h1, h3, bind, Except.bind, pure, Except.pure], generics_append h2 h4⟩
    | localparam d =>
      obtain ⟨_, _, _, r, h1, h2⟩ := paramDecl_generic (B := B) hA d h.1
      obtain ⟨r', h3, h4⟩ := ih _ h.2
      exact ⟨r ++ r', by simp only [visitPortParams, visitPortParam, h1, h3, bind, Except.bind, pure, Except.pure], generics_append h2 h4⟩
    | typed t ps =>
      obtain ⟨rfl, ht, hp, hl⟩ := h
      obtain ⟨e, h1, h2, h3, _⟩ := type_eval (B := B) hA (some (.type t)) true ⟨ht, .inr rfl⟩
      obtain ⟨r, h4, _, h5, _⟩ := typedParams_generic (B := B) hA e _ h2 h3 ps hp
      obtain ⟨r', h6, h7⟩ := ih _ hl
      have h1' : visitDType t = .ok e := h1
      exact ⟨r ++ r', by simp only [visitPortParams, visitPortParam, h1', h4, h6, bind, Except.bind, pure, Except.pure], generics_append h5 h7⟩

theorem hdrParams_generic (hA : Agrees A leaf) (x : Option ParamPorts) (h : okHdrParams x) :
    ∃ r, visitHdrParams x = .ok r ∧ astGenerics A B leaf r = some (evHdrParams A B x) := by
  match x, h with
  | none, _ => exact ⟨[], rfl, rfl⟩
  | some (.assigns l rest), h =>
    obtain ⟨hl, rfl⟩ := h
    obtain ⟨r, h1, h2⟩ := assigns_generic (B := B) hA l hl
    exact ⟨r, h1, by rw [h2]; simp only [evHdrParams, evPortParams, List.append_nil]⟩
  | some (.decls l), h => exact portParams_generic hA l false h

/-! ## Ports -/

theorem netOrVar_eval (hA : Agrees A leaf) (t : NetOrVar) (noDims : Bool) (h : okNetOrVar t noDims) :
    ∃ e, visitNetOrVar (some t) = .ok (e, (evNetOrVar A B t).2) ∧ e ≠ .null ∧ (evNetOrVar A B t).2 = isVar t ∧
      ∀ dims : List VDim, okNetOrVar t dims.isEmpty → okVDims dims → ∃ ty, applyVDims e dims = .ok ty ∧ afterDims e dims = .ok e ∧
        e.clone = .ok e ∧ astType A B leaf ty = some (evVDims A (evNetOrVar A B t).1 dims) := by
  cases t with
  | interconnect t => exact h.elim
  | var t =>
    obtain ⟨e, h1, h2, h3, _⟩ := typeI_eval (B := B) hA .null _ (.inr ⟨rfl, rfl⟩) t _ h
    exact ⟨e, by simp only [visitNetOrVar, h1, bind, Except.bind, pure, Except.pure]; rfl, astType_ne h3, rfl,
      fun dims ho hd => typeIDims_eval hA .null _ (.inr ⟨rfl, rfl⟩) t e h1 dims ho hd⟩
  | net kw t =>
    obtain ⟨e, h1, h2, h3, _⟩ := typeI_eval (B := B) hA (.id none kw) kw (.inl rfl) t _ h
    exact ⟨e, by simp only [visitNetOrVar, h1, bind, Except.bind, pure, Except.pure]; rfl, astType_ne h3, rfl,
      fun dims ho hd => typeIDims_eval hA _ _ (.inl rfl) t e h1 dims ho hd⟩
  | type t =>
    obtain ⟨e, h1, h2, h3, _⟩ := typeI_eval (B := B) hA .null _ (.inr ⟨rfl, rfl⟩) (some t) _ h
    exact ⟨e, by simp only [visitNetOrVar, h1, bind, Except.bind, pure, Except.pure]; rfl, astType_ne h3, rfl,
      fun dims ho hd => typeIDims_eval hA .null _ (.inr ⟨rfl, rfl⟩) (some t) e h1 dims ho hd⟩

/-- The type of the port before: `e` in the AST, `v` its meaning. -/
def baseOk (A : Alg V) (B : SAlg V S) (leaf : Expr → V) (P : Bool → Prop) (e : Expr) (v : V) : Prop :=
  e ≠ .null ∧ ∀ dims : List VDim, P dims.isEmpty → okVDims dims → ∃ ty, applyVDims e dims = .ok ty ∧ afterDims e dims = .ok e ∧
    e.clone = .ok e ∧ astType A B leaf ty = some (evVDims A v dims)

theorem wire_base (hA : Agrees A leaf) : baseOk A B leaf (fun _ => True) (.id none (c! "wire")) (A.kw (c! "wire")) := by
  refine ⟨(by intro h; cases h), ?_⟩
  intro dims _ hd
  obtain ⟨ty, h1, h2⟩ := vdims_eval hA dims hd (.id none (c! "wire")) _ (kw_eval hA (show isKw (c! "wire") = true by decide))
  exact ⟨ty, by rw [applyVDims]; exact h1, by cases dims <;> rfl, rfl, astType_some h2⟩

theorem astPorts_cons {p : IdDef} {l : List IdDef} {v : Port V} {vs : List (Port V)} (hp : astPort A B leaf p = some v)
    (hl : astPorts A B leaf l = some vs) : astPorts A B leaf (p :: l) = some (v :: vs) := by
  simp only [astPorts, hp, hl, Option.bind_eq_bind, Option.bind_some, pure]

/-- The direction a port inherits. -/
def inherited : Option Dir → Dir
  | some d => d
  | none => .UNKNOWN

theorem ansiPort_none {e : Expr} (hd : AnsiHead) (D : Option Dir) (n : Ident) (dims : List VDim) (val : Option Exp) (s : Str) (x ty e0 e1 : Expr) (var : Bool)
    (hn : identStr n = .ok s) (hv : visitOptExp val = .ok x) (hh : visitAnsiHead hd = .ok (e0, var)) (hdir : (AnsiPort.decl hd n dims val).dir? = none)
    (hb : ansiBase e0 e = .ok e1) (ht : applyVDims e1 dims = .ok ty) (ha : afterDims e1 dims = .ok e1) :
    visitAnsiPort D e (.decl hd n dims val) = .ok (⟨s, ty, x, var, false, false, false, false, inherited D⟩, e1) := by
  simp only [visitAnsiPort, hdir, hn, hv, hh, hb, ht, ha, bind, Except.bind, pure, Except.pure]
  cases D <;> rfl

theorem ansiPort_some {e : Expr} (d : PortDir) (hd : AnsiHead) (D : Option Dir) (n : Ident) (dims : List VDim) (val : Option Exp) (s : Str)
    (x ty e0 e1 : Expr) (var : Bool)
    (hn : identStr n = .ok s) (hv : visitOptExp val = .ok x) (hh : visitAnsiHead hd = .ok (e0, var)) (hdir : (AnsiPort.decl hd n dims val).dir? = some d)
    (hb : ansiBase e0 .null = .ok e1) (ht : applyVDims e1 dims = .ok ty) (ha : afterDims e1 dims = .ok e1) :
    visitAnsiPort D e (.decl hd n dims val) = .ok (⟨s, ty, x, var, false, false, false, false, dirOf d⟩, e1) := by
  simp only [visitAnsiPort, hdir, hn, hv, hh, hb, ht, ha, bind, Except.bind, pure, Except.pure]
  cases d <;> rfl

theorem ansiPort_step (D : Option Dir) (e e1 ty x : Expr) (p : AnsiPort) (l : List AnsiPort) (s : Str) (n : Ident) (var : Bool) (D' prev prev' : Dir)
    (vt : V) (val : Option V) (vs : List (Port V))
    (h1 : visitAnsiPort D e p = .ok (⟨s, ty, x, var, false, false, false, false, D'⟩, e1)) (hs : identStr n = .ok s) (hl : leaf (.id none s) = A.ident n)
    (ht : astType A B leaf ty = some vt) (hx : astOpt A leaf x = some val) (hp' : prev' ≠ .UNKNOWN)
    (hD' : D' = .UNKNOWN ∧ prev' = prev ∨ D' = prev') (names : List Ident)
    (ih : ∃ r, visitAnsiPorts (some D') e1 l = .ok r ∧ (∀ d ∈ r, ∃ i ∈ names, identStr i = .ok d.name) ∧
      astPorts A B leaf (finishPorts prev' r) = some vs) :
    ∃ r, visitAnsiPorts D e (p :: l) = .ok r ∧ (∀ d ∈ r, ∃ i ∈ n :: names, identStr i = .ok d.name) ∧
      astPorts A B leaf (finishPorts prev r) = some (⟨prev', ⟨false, false, var⟩, A.ident n, vt, val⟩ :: vs) := by
  obtain ⟨r, h11, h12, h13⟩ := ih
  refine ⟨⟨s, ty, x, var, false, false, false, false, D'⟩ :: r, ?_, ?_, ?_⟩
  · simp only [visitAnsiPorts, h1, h11, bind, Except.bind, pure, Except.pure]
  · intro d hd
    cases hd with
    | head => exact ⟨n, .head _, hs⟩
    | tail _ hd =>
      obtain ⟨i, hi, he⟩ := h12 d hd
      exact ⟨i, .tail _ hi, he⟩
  · have hty := astType_ne ht
    rcases hD' with ⟨rfl, rfl⟩ | rfl
    · simp only [finishPorts, if_true]
      rw [defaultType_eq (d := ⟨s, ty, x, var, false, false, false, false, prev'⟩) hty]
      exact astPorts_cons (by simp only [astPort, ht, hx, hl, Option.bind_eq_bind, Option.bind_some, pure]) h13
    · simp only [finishPorts, if_neg hp']
      rw [defaultType_eq (d := ⟨s, ty, x, var, false, false, false, false, D'⟩) hty]
      exact astPorts_cons (by simp only [astPort, ht, hx, hl, Option.bind_eq_bind, Option.bind_some, pure]) h13

/-- `D`: direction of the port before in the AST, `prev` in the source. -/
theorem ansiPorts_eval (hA : Agrees A leaf) (l : List AnsiPort) : ∀ (P : Bool → Prop) (var : Bool) (D : Option Dir) (prev : Dir) (e : Expr) (v : V),
    prev ≠ .UNKNOWN → (D = none ∨ D = some .UNKNOWN ∨ D = some prev) →
    (e = .null ∧ v = A.kw (c! "wire") ∧ (P = fun _ => True) ∨ baseOk A B leaf P e v) → okAnsiPorts P var l →
    ∃ r, visitAnsiPorts D e l = .ok r ∧ (∀ d ∈ r, ∃ i ∈ l.map ansiPortName, identStr i = .ok d.name) ∧
      astPorts A B leaf (finishPorts prev r) = some (evAnsiPorts A B prev v var l) := by
  induction l with
  | nil => intro P var D prev e v _ _ _ _; exact ⟨[], rfl, (fun d hd => by cases hd), rfl⟩
  | cons p l ih =>
    intro P var D prev e v hp hD hb h
    cases p with
    | expl => exact h.elim
    | decl hd n dims val =>
      obtain ⟨hn, hdims, hval, hh⟩ := h
      obtain ⟨s, h3, h4⟩ := ident_leaf hA hn
      obtain ⟨x, h5, h6⟩ := optExp_eval hA val hval
      have hDD : inherited D = .UNKNOWN ∧ prev = prev ∨ inherited D = prev := by
        rcases hD with rfl | rfl | rfl
        · exact .inl ⟨rfl, rfl⟩
        · exact .inl ⟨rfl, rfl⟩
        · exact .inr rfl
      have hDD' : some (inherited D) = none ∨ some (inherited D) = some .UNKNOWN ∨ some (inherited D) = some prev := by
        rcases hDD with ⟨h, _⟩ | h <;> simp [h]
      cases hd with
      | none =>
        obtain ⟨rfl, hP, hl⟩ := hh
        rcases hb with ⟨rfl, rfl, rfl⟩ | hb
        · have hw := wire_base (B := B) hA
          obtain ⟨ty, h7, h8, h9, h10⟩ := hw.2 dims trivial hdims
          exact ansiPort_step D _ _ ty x _ l s n false (inherited D) prev prev _ _ _ (ansiPort_none .none D n dims val s x ty .null _ false h3 h5 rfl rfl rfl h7 h8)
            h3 h4 h10 h6 hp hDD _ (ih _ _ _ _ _ _ hp hDD' (.inr hw) hl)
        · obtain ⟨ty, h7, h8, h9, h10⟩ := hb.2 dims hP hdims
          have he : ansiBase .null e = .ok e := by
            have := hb.1
            cases e <;> first | (exact absurd rfl this) | exact h9
          exact ansiPort_step D _ _ ty x _ l s n false (inherited D) prev prev _ _ _ (ansiPort_none .none D n dims val s x ty .null _ false h3 h5 rfl rfl he h7 h8)
            h3 h4 h10 h6 hp hDD _ (ih _ _ _ _ _ _ hp hDD' (.inr hb) hl)
      | dir d t =>
        have hd' : (dirOf d) ≠ .UNKNOWN := by cases d <;> decide
        cases t with
        | none =>
          have hw := wire_base (B := B) hA
          obtain ⟨ty, h7, h8, h9, h10⟩ := hw.2 dims trivial hdims
          exact ansiPort_step D _ _ ty x _ l s n false (dirOf d) prev (dirOf d) _ _ _ (ansiPort_some d _ D n dims val s x ty .null _ false h3 h5 rfl rfl rfl h7 h8)
            h3 h4 h10 h6 hd' (.inr rfl) _ (ih _ _ _ _ _ _ hd' (.inr (.inr rfl)) (.inr hw) hh)
        | some t =>
          obtain ⟨e', h7, h8, h9, h10⟩ := netOrVar_eval (B := B) hA t _ hh.1
          obtain ⟨ty, h11, h12, h13, h14⟩ := h10 dims hh.1 hdims
          exact ansiPort_step D _ _ ty x _ l s n (evNetOrVar A B t).2 (dirOf d) prev (dirOf d) _ _ _
            (ansiPort_some d (.dir d (some t)) D n dims val s x ty e' e' _ h3 h5 h7 rfl (by cases e' <;> first | (exact absurd rfl h8) | rfl) h11 h12)
            h3 h4 h14 h6 hd' (.inr rfl) _ (ih _ _ _ _ _ _ hd' (.inr (.inr rfl)) (.inr ⟨h8, h10⟩) (h9 ▸ hh.2 : okAnsiPorts (okNetOrVar t) (evNetOrVar A B t).2 l))
      | type t =>
        obtain ⟨e', h7, h8, h9, h10⟩ := netOrVar_eval (B := B) hA t _ hh.1
        obtain ⟨ty, h11, h12, h13, h14⟩ := h10 dims hh.1 hdims
        exact ansiPort_step D _ _ ty x _ l s n (evNetOrVar A B t).2 (inherited D) prev prev _ _ _
          (ansiPort_none (.type t) D n dims val s x ty e' e' _ h3 h5 h7 rfl (by cases e' <;> first | (exact absurd rfl h8) | rfl) h11 h12)
          h3 h4 h14 h6 hp hDD _ (ih _ _ _ _ _ _ hp hDD' (.inr ⟨h8, h10⟩) (h9 ▸ hh.2 : okAnsiPorts (okNetOrVar t) (evNetOrVar A B t).2 l))
      | iface => exact hh.elim

/-! ## Ports declared in the body -/

theorem forall₂_left {α β : Type} {R : α → β → Prop} {l : List α} {l' : List β} (h : List.Forall₂ R l l') : ∀ a ∈ l, ∃ b ∈ l', R a b := by
  induction h with
  | nil => intro a ha; cases ha
  | cons h _ ih =>
    intro a ha
    cases ha with
    | head => exact ⟨_, .head _, h⟩
    | tail _ ha =>
      obtain ⟨b, hb, hr⟩ := ih a ha
      exact ⟨b, .tail _ hb, hr⟩

theorem name_of_str {i : Ident} {s : Str} (h : identStr i = .ok s) : s = identName i := by
  simp only [identStr] at h
  simp only [identName]
  split at h
  · rename_i he
    rw [if_pos he]
    simp only [svEscapedId] at h
    split at h
    · cases h
    · rename_i v hv
      obtain rfl := Except.ok.inj h
      simp only [substr] at hv
      split at hv
      · exact (Option.some.inj hv).symm
      · cases hv
  · rename_i he
    rw [if_neg he]
    exact (Except.ok.inj h).symm

theorem auto_base (hA : Agrees A leaf) : baseOk A B leaf (fun b => b = true) (.symb none .T_AUTO) B.auto := by
  refine ⟨(by intro h; cases h), fun dims hd _ => ?_⟩
  cases dims with
  | nil => exact ⟨_, rfl, rfl, rfl, rfl⟩
  | cons d l => cases hd

theorem typeI_base (hA : Agrees A leaf) (nt : Expr) (kw : Str) (hn : nt = .id none kw ∨ nt = .null ∧ kw = c! "wire")
    (t : Option DTypeOrImpl) (noDims : Bool) (h : okTypeI kw t noDims) :
    ∃ e, visitDTypeOrImpl nt t = .ok e ∧ baseOk A B leaf (okTypeI kw t) e (evTypeI A B kw t) := by
  obtain ⟨e, h1, h2, h3, _⟩ := typeI_eval (B := B) hA nt kw hn t _ h
  exact ⟨e, h1, astType_ne h3, fun dims ho hd => typeIDims_eval hA nt kw hn t e h1 dims ho hd⟩

theorem netOrVar_base (hA : Agrees A leaf) (t : NetOrVar) (noDims : Bool) (h : okNetOrVar t noDims) :
    ∃ e, visitNetOrVar (some t) = .ok (e, (evNetOrVar A B t).2) ∧ baseOk A B leaf (okNetOrVar t) e (evNetOrVar A B t).1 := by
  obtain ⟨e, h1, h2, _, h3⟩ := netOrVar_eval (B := B) hA t noDims h
  exact ⟨e, h1, h2, h3⟩

/-- What a declaration gives for one name. -/
def isDecl (A : Alg V) (B : SAlg V S) (leaf : Expr → V) (d : IdDef) (x : Ident × Port V) : Prop :=
  identStr x.1 = .ok d.name ∧ astPort A B leaf d = some x.2 ∧ d.type ≠ .null ∧ d.dir ≠ .UNKNOWN ∧
    d = { name := d.name, type := d.type, value := d.value, latched := d.latched, dir := d.dir }

theorem varId_base (hA : Agrees A leaf) (lat : Bool) (dir : Dir) (hdir : dir ≠ .UNKNOWN) (P : Bool → Prop) (e : Expr) (t : V)
    (hb : baseOk A B leaf P e t) (v : VarId) (h : okIdent v.name ∧ okVDims v.dims ∧ okOptExp v.value ∧ P v.dims.isEmpty) :
    ∃ d, visitVarId lat dir e v = .ok d ∧ afterDims e v.dims = .ok e ∧ e.clone = .ok e ∧
      isDecl A B leaf d (v.name, ⟨dir, ⟨false, false, lat⟩, A.ident v.name, evVDims A t v.dims, v.value.map (evExp A)⟩) := by
  obtain ⟨hn, hd, hv, ht⟩ := h
  obtain ⟨ty, h1, h7, h8, h2⟩ := hb.2 v.dims ht hd
  obtain ⟨s, h3, h4⟩ := ident_leaf hA hn
  obtain ⟨x, h5, h6⟩ := optExp_eval hA v.value hv
  refine ⟨_, by simp only [visitVarId, h1, h3, h5, bind, Except.bind, pure, Except.pure]; rfl, h7, h8, h3, ?_, astType_ne h2, hdir, rfl⟩
  simp only [astPort, h2, h6, h4, Option.bind_eq_bind, Option.bind_some, pure]

theorem varIdsRest_base (hA : Agrees A leaf) (lat : Bool) (dir : Dir) (hdir : dir ≠ .UNKNOWN) (P : Bool → Prop) (e : Expr) (t : V)
    (hb : baseOk A B leaf P e t) (l : List VarId)
    (h : ∀ v ∈ l, okIdent v.name ∧ okVDims v.dims ∧ okOptExp v.value ∧ P v.dims.isEmpty) :
    ∃ r, visitVarIdsRest lat dir e l = .ok r ∧ List.Forall₂ (isDecl A B leaf) r (l.map fun v =>
      (v.name, ⟨dir, ⟨false, false, lat⟩, A.ident v.name, evVDims A t v.dims, v.value.map (evExp A)⟩)) := by
  induction l with
  | nil => exact ⟨[], rfl, .nil⟩
  | cons v l ih =>
    obtain ⟨r, h1, h2⟩ := ih fun x hx => h x (.tail _ hx)
    obtain ⟨d, h3, _, h4, h5⟩ := varId_base hA lat dir hdir P e t hb v (h v (.head _))
    exact ⟨d :: r, by simp only [visitVarIdsRest, h4, h3, h1, bind, Except.bind, pure, Except.pure], .cons h5 h2⟩

theorem varIds_base (hA : Agrees A leaf) (lat : Bool) (dir : Dir) (hdir : dir ≠ .UNKNOWN) (P : Bool → Prop) (e : Expr) (t : V)
    (hb : baseOk A B leaf P e t) (l : List VarId)
    (h : ∀ v ∈ l, okIdent v.name ∧ okVDims v.dims ∧ okOptExp v.value ∧ P v.dims.isEmpty) :
    ∃ r, visitVarIds lat dir e l = .ok r ∧ List.Forall₂ (isDecl A B leaf) r (l.map fun v =>
      (v.name, ⟨dir, ⟨false, false, lat⟩, A.ident v.name, evVDims A t v.dims, v.value.map (evExp A)⟩)) := by
  cases l with
  | nil => exact ⟨[], rfl, .nil⟩
  | cons v l =>
    obtain ⟨r, h1, h2⟩ := varIdsRest_base hA lat dir hdir P e t hb l fun x hx => h x (.tail _ hx)
    obtain ⟨d, h3, h6, h4, h5⟩ := varId_base hA lat dir hdir P e t hb v (h v (.head _))
    exact ⟨d :: r, by simp only [visitVarIds, h6, h3, h1, bind, Except.bind, pure, Except.pure], .cons h5 h2⟩

theorem nonansiDecl_eval (hA : Agrees A leaf) (d : NonansiDecl) (h : okNonansiDecl d) :
    ∃ r, visitNonansiDecl d = .ok r ∧ List.Forall₂ (isDecl A B leaf) r (evNonansiDecl A B d) := by
  obtain ⟨hne, h⟩ := h
  have hf : ∃ v, v ∈ names d := by
    cases hl : names d with
    | nil => exact absurd hl hne
    | cons v l => exact ⟨v, .head _⟩
  obtain ⟨v, hv⟩ := hf
  have ht := (h v hv).2.2.2
  cases d with
  | inout t l =>
    match t, ht, h with
    | none, _, h =>
      obtain ⟨r, h2, h3⟩ := varIds_base hA false .INOUT (by decide) _ _ _ (auto_base (B := B) hA) l h
      exact ⟨r, by simp only [visitNonansiDecl, visitNetPort, h2, bind, Except.bind], h3⟩
    | some (.net kw t), ht, h =>
      obtain ⟨e, h1, hb⟩ := typeI_base (B := B) hA _ kw (.inl rfl) t _ ht
      obtain ⟨r, h2, h3⟩ := varIds_base hA false .INOUT (by decide) _ _ _ hb l h
      exact ⟨r, by simp only [visitNonansiDecl, visitNetPort, h1, h2, bind, Except.bind], h3⟩
    | some (.type t), ht, h =>
      obtain ⟨e, h1, hb⟩ := typeI_base (B := B) hA _ _ (.inr ⟨rfl, rfl⟩) (some t) _ ht
      obtain ⟨r, h2, h3⟩ := varIds_base hA false .INOUT (by decide) _ _ _ hb l h
      exact ⟨r, by simp only [visitNonansiDecl, visitNetPort, h1, h2, bind, Except.bind], h3⟩
  | input t l =>
    match t, ht, h with
    | none, _, h =>
      obtain ⟨r, h2, h3⟩ := varIds_base hA false .IN (by decide) _ _ _ (auto_base (B := B) hA) l h
      exact ⟨r, by simp only [visitNonansiDecl, visitNetOrVar, h2, bind, Except.bind], h3⟩
    | some t, ht, h =>
      obtain ⟨e, h1, hb⟩ := netOrVar_base (B := B) hA t _ ht
      obtain ⟨r, h2, h3⟩ := varIds_base hA (evNetOrVar A B t).2 .IN (by decide) _ _ _ hb l h
      exact ⟨r, by simp only [visitNonansiDecl, h1, h2, bind, Except.bind], h3⟩
  | output t l =>
    match t, ht, h with
    | none, _, h =>
      obtain ⟨r, h2, h3⟩ := varIds_base hA false .OUT (by decide) _ _ _ (auto_base (B := B) hA) l h
      exact ⟨r, by simp only [visitNonansiDecl, visitNetOrVar, h2, bind, Except.bind], h3⟩
    | some t, ht, h =>
      obtain ⟨e, h1, hb⟩ := netOrVar_base (B := B) hA t _ ht
      obtain ⟨r, h2, h3⟩ := varIds_base hA (evNetOrVar A B t).2 .OUT (by decide) _ _ _ hb l h
      exact ⟨r, by simp only [visitNonansiDecl, h1, h2, bind, Except.bind], h3⟩
  | iface i m l => exact ht.elim
  | ref t l =>
    match t, ht, h with
    | none, _, h =>
      obtain ⟨r, h2, h3⟩ := varIds_base hA false .LINKAGE (by decide) _ _ _ (auto_base (B := B) hA) l h
      exact ⟨r, by simp only [visitNonansiDecl, visitVarDType, h2, bind, Except.bind], h3⟩
    | some (.type t), ht, h =>
      obtain ⟨e, h1, hb⟩ := typeI_base (B := B) hA _ _ (.inr ⟨rfl, rfl⟩) (some (.type t)) _ ht
      obtain ⟨r, h2, h3⟩ := varIds_base hA false .LINKAGE (by decide) _ _ _ hb l h
      have h1' : visitDType t = .ok e := h1
      exact ⟨r, by simp only [visitNonansiDecl, visitVarDType, h1', h2, bind, Except.bind], h3⟩

/-- The port of a name in the header, before the body. -/
def headPort (s : Str) : IdDef := { name := s, type := .null, value := .null }

theorem nonansiPorts_eval (l : List (Option NonansiPort)) (h : ∀ p ∈ l, ∃ i, p = plainPort i ∧ okIdent i) :
    visitNonansiPorts l = .ok ((l.flatMap nonansiPortName).map fun i => headPort (identName i)) := by
  induction l with
  | nil => rfl
  | cons p l ih =>
    obtain ⟨i, rfl, s, hs, _⟩ := h p (.head _)
    have hn := name_of_str hs
    subst hn
    simp only [plainPort, visitNonansiPorts, visitNonansiPort, visitNonansiExpr, visitDotIndex, visitDotIndexRanges, visitIdent, hs, splitTypeBase,
      ih fun q hq => h q (.tail _ hq), bind, Except.bind, pure, Except.pure, List.flatMap_cons, nonansiPortName, List.map_append, List.map_cons,
      List.map_nil, List.cons_append, List.nil_append, headPort]

/-- What the declarations of the body make of a port of the header. -/
def declared (ds : List IdDef) (p : IdDef) : IdDef :=
  match ds.find? fun d => d.name = p.name with
  | some d => d
  | none => p

theorem updPortDecl_head {d p : IdDef} (hd : d = { name := d.name, type := d.type, value := d.value, latched := d.latched, dir := d.dir })
    (hp : p = headPort d.name) : updPortDecl d p = d := by
  rw [hp]
  conv_rhs => rw [hd]
  simp only [updPortDecl, headPort, Bool.false_or, IdDef.mk.injEq, true_and, and_true]
  refine ⟨?_, ?_⟩
  · cases d.value <;> rfl
  · rw [hd]

theorem nodup_inj {l : List IdDef} (h : (l.map (·.name)).Nodup) {a b : IdDef} (ha : a ∈ l) (hb : b ∈ l) (he : a.name = b.name) : a = b := by
  induction l with
  | nil => cases ha
  | cons x l ih =>
    rw [List.map_cons, List.nodup_cons] at h
    cases ha with
    | head =>
      cases hb with
      | head => rfl
      | tail _ hb => exact absurd (List.mem_map.2 ⟨b, hb, he.symm⟩) h.1
    | tail _ ha =>
      cases hb with
      | head => exact absurd (List.mem_map.2 ⟨a, ha, he⟩) h.1
      | tail _ hb => exact ih h.2 ha hb

/-- Declarations with different names. -/
theorem applyPortDecls_nodup (ds : List IdDef) : ∀ ps : List IdDef, (ps.map (·.name)).Nodup → (ds.map (·.name)).Nodup →
    (∀ d ∈ ds, d = { name := d.name, type := d.type, value := d.value, latched := d.latched, dir := d.dir }) →
    (∀ d ∈ ds, headPort d.name ∈ ps) → applyPortDecls ps ds = .ok (ps.map (declared ds)) := by
  induction ds with
  | nil =>
    intro ps _ _ _ _
    have : ps.map (declared []) = ps := by
      conv_rhs => rw [← List.map_id ps]
      rfl
    rw [this]; rfl
  | cons d ds ih =>
    intro ps hn hd hp hm
    rw [List.map_cons, List.nodup_cons] at hd
    have hin : d.name ∈ ps.map (·.name) := List.mem_map.2 ⟨_, hm d (.head _), rfl⟩
    obtain ⟨q, hq⟩ := getPort_some _ _ hin
    obtain ⟨l', hl'⟩ := updPort_some d.name (updPortDecl d) ps hin
    have huniq : ∀ p ∈ ps, p.name = d.name → p = headPort d.name := by
      intro p hp' he
      exact nodup_inj hn hp' (hm d (.head _)) he
    have hqv : q.value = .null := by
      have h1 := List.mem_of_find?_eq_some hq
      have h2 := List.find?_some hq
      rw [huniq q h1 (by simpa using h2)]; rfl
    have h1 : applyPortDecl ps d = .ok (ps.map fun p => if p.name = d.name then d else p) := by
      have e := updPort_nodup _ _ _ _ hn hl'
      simp only [applyPortDecl, hq, hqv, isNullE, Bool.not_true, Bool.and_false, Bool.false_eq_true, if_false, hl', e]
      congr 1
      apply List.map_congr_left
      intro p hp'
      split
      · rename_i he
        exact updPortDecl_head (hp d (.head _)) (huniq p hp' he)
      · rfl
    have hnames : (ps.map fun p => if p.name = d.name then d else p).map (·.name) = ps.map (·.name) := by
      rw [List.map_map]
      apply List.map_congr_left
      intro p _
      simp only [Function.comp]
      split
      · rename_i he; exact he.symm
      · rfl
    simp only [applyPortDecls, h1, bind, Except.bind]
    rw [ih _ (by rw [hnames]; exact hn) hd.2 (fun x hx => hp x (.tail _ hx))]
    · rw [List.map_map]
      congr 1
      apply List.map_congr_left
      intro p _
      simp only [Function.comp]
      by_cases he : p.name = d.name
      · rw [if_pos he]
        simp only [declared]
        have : ds.find? (fun x => x.name = d.name) = none := by
          rw [List.find?_eq_none]
          intro x hx hxe
          exact hd.1 (List.mem_map.2 ⟨x, hx, by simpa using hxe⟩)
        rw [this, List.find?_cons_of_pos (by simp [he])]
      · rw [if_neg he]
        simp only [declared]
        rw [List.find?_cons_of_neg (by simpa using fun h => he h.symm)]
    · intro x hx
      refine List.mem_map.2 ⟨_, hm x (.tail _ hx), ?_⟩
      rw [if_neg]
      intro he
      exact hd.1 (List.mem_map.2 ⟨x, hx, he⟩)

theorem decls_names {r : List IdDef} {x : List (Ident × Port V)} (h : List.Forall₂ (isDecl A B leaf) r x) :
    r.map (·.name) = x.map fun y => identName y.1 := by
  induction h with
  | nil => rfl
  | cons h _ ih => rw [List.map_cons, List.map_cons, ih, name_of_str h.1]

theorem bodyPorts_names (A : Alg V) (B : SAlg V S) (l : List ModItem) : (evBodyPorts A B l).map (·.1) = bodyPortNames l := by
  induction l with
  | nil => rfl
  | cons i l ih =>
    cases i <;> simp only [evBodyPorts, bodyPortNames, ih, List.map_append, evNonansiDecl, List.map_map]
    rfl

/-- The ports of the header after the body. -/
theorem declared_eval {r : List IdDef} {x : List (Ident × Port V)} (h : List.Forall₂ (isDecl A B leaf) r x) (i : Ident)
    (hi : identName i ∈ x.map fun y => identName y.1) :
    ∃ d v, declared r (headPort (identName i)) = d ∧ isDecl A B leaf d v ∧ evNonansiPort A B x (plainPort i) = v.2 ∧ d.name = identName i := by
  induction h with
  | nil => cases hi
  | @cons d v r x h1 h2 ih =>
    have hn := name_of_str h1.1
    by_cases he : identName v.1 = identName i
    · refine ⟨d, v, ?_, h1, ?_, hn.trans he⟩
      · simp only [declared, headPort]
        rw [List.find?_cons_of_pos (by simp [hn, he])]
      · simp only [evNonansiPort, plainPort]
        rw [List.find?_cons_of_pos (by simp [he])]
    · obtain ⟨d', v', h3, h4, h5, h6⟩ := ih (by
        rw [List.map_cons] at hi
        rcases List.mem_cons.1 hi with hi | hi
        · exact absurd hi.symm he
        · exact hi)
      refine ⟨d', v', ?_, h4, ?_, h6⟩
      · rw [← h3]
        simp only [declared, headPort]
        rw [List.find?_cons_of_neg (by simp [hn, he])]
      · rw [← h5]
        simp only [evNonansiPort, plainPort]
        rw [List.find?_cons_of_neg (by simp [he])]

theorem finishPorts_id (l : List IdDef) : ∀ d, (∀ p ∈ l, p.dir ≠ .UNKNOWN ∧ p.type ≠ .null) → finishPorts d l = l := by
  induction l with
  | nil => intro d _; rfl
  | cons p l ih =>
    intro d h
    have hp := h p (.head _)
    rw [finishPorts, if_neg hp.1, ih _ fun q hq => h q (.tail _ hq)]
    congr 1
    obtain ⟨n, t, v, a, b, c, e, f, g⟩ := p
    simp only [defaultType]
    cases t <;> first | rfl | exact absurd rfl hp.2

theorem declaredPorts_eval {r : List IdDef} {x : List (Ident × Port V)} (h : List.Forall₂ (isDecl A B leaf) r x)
    (l : List (Option NonansiPort)) (hl : ∀ p ∈ l, ∃ i, p = plainPort i ∧ okIdent i)
    (hi : ∀ i ∈ l.flatMap nonansiPortName, identName i ∈ x.map fun y => identName y.1) :
    let ps := ((l.flatMap nonansiPortName).map fun i => headPort (identName i)).map (declared r)
    (∀ p ∈ ps, p.dir ≠ .UNKNOWN ∧ p.type ≠ .null) ∧ (∀ p ∈ ps, ∃ i ∈ l.flatMap nonansiPortName, identStr i = .ok p.name) ∧
      astPorts A B leaf ps = some (l.map (evNonansiPort A B x)) := by
  induction l with
  | nil => exact ⟨(fun p hp => by cases hp), (fun p hp => by cases hp), rfl⟩
  | cons p l ih =>
    obtain ⟨i, rfl, hok⟩ := hl p (.head _)
    obtain ⟨i1, i2, i3⟩ := ih (fun q hq => hl q (.tail _ hq)) fun j hj => hi j (by rw [List.flatMap_cons]; exact List.mem_append_right _ hj)
    obtain ⟨d, v, h1, h2, h3, h4⟩ := declared_eval h i (hi i (by rw [List.flatMap_cons]; exact List.mem_append_left _ (.head _)))
    have e : (plainPort i :: l).flatMap nonansiPortName = i :: l.flatMap nonansiPortName := rfl
    simp only [e, List.map_cons, h1]
    refine ⟨?_, ?_, ?_⟩
    · intro p hp
      cases hp with
      | head => exact ⟨h2.2.2.2.1, h2.2.2.1⟩
      | tail _ hp => exact i1 p hp
    · intro p hp
      cases hp with
      | head =>
        obtain ⟨s, hs, _⟩ := hok
        exact ⟨i, .head _, by rw [hs, h4, name_of_str hs]⟩
      | tail _ hp =>
        obtain ⟨j, hj, hjs⟩ := i2 p hp
        exact ⟨j, .tail _ hj, hjs⟩
    · simp only [astPorts, h2.2.1, i3, h3, Option.bind_eq_bind, Option.bind_some, pure]

/-- The ports of the header and of the body together. -/
theorem hdrPorts_eval (hA : Agrees A leaf) (x : HdrPorts) (items : List ModItem) (h : okHdrPorts items x) (ds : List IdDef)
    (hds : List.Forall₂ (isDecl A B leaf) ds (evBodyPorts A B items)) :
    ∃ r r', visitHdrPorts x = .ok r ∧ applyPortDecls r ds = .ok r' ∧ (∀ d ∈ r', ∃ i ∈ hdrPortNames x, identStr i = .ok d.name) ∧
      astPorts A B leaf (finishPorts .INOUT r') = some (evHdrPorts A B items x) := by
  have hb := bodyPorts_names A B items
  have hnil : bodyPortNames items = [] → ds = [] := by
    intro he
    rw [he, List.map_eq_nil_iff] at hb
    rw [hb] at hds
    cases hds
    rfl
  match x, h with
  | .none, h =>
    rw [hnil h]
    exact ⟨[], [], rfl, rfl, (fun d hd => by cases hd), rfl⟩
  | .list (.ansi l), h =>
    rw [hnil h.2]
    obtain ⟨r, h1, h2, h3⟩ := ansiPorts_eval (B := B) hA l _ _ none .INOUT .null _ (by decide) (.inl rfl) (.inl ⟨rfl, rfl, rfl⟩) h.1
    exact ⟨r, r, h1, rfl, h2, h3⟩
  | .list (.nonansi l), h =>
    obtain ⟨hl, hn, hp⟩ := h
    have hm : (evBodyPorts A B items).map (fun y => identName y.1) = (bodyPortNames items).map identName := by
      rw [← hb, List.map_map]; rfl
    have hdn : ds.map (·.name) = (bodyPortNames items).map identName := (decls_names hds).trans hm
    have hh : (((l.flatMap nonansiPortName).map fun i => headPort (identName i)).map (·.name)) = (l.flatMap nonansiPortName).map identName := by
      rw [List.map_map]; rfl
    have ha := applyPortDecls_nodup ds ((l.flatMap nonansiPortName).map fun i => headPort (identName i)) (by rw [hh]; exact hn)
      (by rw [hdn]; exact hp.nodup_iff.2 hn)
      (by
        intro d hd
        obtain ⟨y, _, hy⟩ := forall₂_left hds d hd
        exact hy.2.2.2.2)
      (by
        intro d hd
        have : d.name ∈ (l.flatMap nonansiPortName).map identName := hp.subset (by rw [← hdn]; exact List.mem_map_of_mem hd)
        obtain ⟨i, hi, he⟩ := List.mem_map.1 this
        exact List.mem_map.2 ⟨i, hi, by rw [he]⟩)
    obtain ⟨h1, h2, h3⟩ := declaredPorts_eval hds l hl fun i hi => by
      rw [hm]; exact hp.symm.subset (List.mem_map_of_mem hi)
    exact ⟨_, _, nonansiPorts_eval l hl, ha, h2, by rw [finishPorts_id _ _ h1]; exact h3⟩

/-! ## Modules -/

theorem consume_free (ports : List IdDef) (l : List Obj) (names : List Ident) (hf : freeOf ports names) (hd : declares l names) :
    consumePortVars ports l = (l, ports) := by
  induction l with
  | nil => rfl
  | cons o l ih =>
    have := ih fun x hx => hd x (.tail _ hx)
    simp only [consumePortVars]
    split
    · rw [this]
    · rename_i d hi
      rw [updPort_none, this]
      intro p hp he
      obtain ⟨i, hi, hn⟩ := hd o (.head _) d hi
      exact hf p hp i hi (by rw [hn, he])

theorem applyPortDecls_append (a : List IdDef) : ∀ (ps ps1 ps2 : List IdDef) (b : List IdDef), applyPortDecls ps (a ++ b) = .ok ps2 →
    ∃ ps1, applyPortDecls ps a = .ok ps1 ∧ applyPortDecls ps1 b = .ok ps2 := by
  induction a with
  | nil => intro ps _ ps2 b h; exact ⟨ps, rfl, h⟩
  | cons d a ih =>
    intro ps ps1 ps2 b h
    simp only [List.cons_append, applyPortDecls, bind_ok] at h
    obtain ⟨q, h1, h2⟩ := h
    obtain ⟨q', h3, h4⟩ := ih q ps1 ps2 b h2
    exact ⟨q', by simp only [applyPortDecls, h1, h3, bind, Except.bind], h4⟩

mutual
theorem mod_eval (hA : Agrees A leaf) (hB : SAgrees A B) (hN : MAgrees N) : ∀ x : Mod, okMod x →
    ∃ o, visitMod x = .ok o ∧ astItem A B N leaf o = some (evMod A B N x) ∧ o.idDef? = none
  | .mk ext h ports items, ho => by
    simp only [okMod] at ho
    obtain ⟨rfl, he, hk, hg, hp, hi, ha⟩ := ho
    obtain ⟨gs, h1, h2⟩ := hdrParams_generic (B := B) hA h.params hg
    obtain ⟨ds, gs', os, hds, h6, h7, h8, h9⟩ := modItems_eval hA hB hN h.params.isSome items hi
    obtain ⟨ps, ps', h3, h3', h4, h5⟩ := hdrPorts_eval (B := B) hA ports items hp ds hds
    have h6 := h6 { generics := gs, ports := ps, objs := [] } ps' h3'
    have hf : freeOf ps' (items.flatMap modItemNames) := by
      intro p hp i hi he
      obtain ⟨j, hj, hn⟩ := h4 p hp
      exact ha i hi j hj (by rw [he, hn])
    refine ⟨_, by simp only [visitMod, h1, h3, h6, bind, Except.bind, pure, Except.pure, Bool.false_eq_true, if_false]; rfl, ?_, rfl⟩
    have hn : leaf (.id none h.name.text) = A.ident h.name :=
      hA.ident h.name _ (by simp only [identStr, he, Bool.false_eq_true, if_false]) hk
    have hgs := generics_append h2 h8
    simp only [astGenerics] at hgs
    simp only [List.nil_append, consume_free ps' os _ hf h9, astItem, if_true, hgs, h5, h7, hn, Option.bind_eq_bind, Option.bind_some, pure, evMod]
theorem modItems_eval (hA : Agrees A leaf) (hB : SAgrees A B) (hN : MAgrees N) (hdr : Bool) : ∀ x : List ModItem, okModItems hdr x →
    ∃ ds gs os, List.Forall₂ (isDecl A B leaf) ds (evBodyPorts A B x) ∧
      (∀ (st : ModState) (ps' : List IdDef), applyPortDecls st.ports ds = .ok ps' →
        visitModItems st x = .ok { generics := st.generics ++ gs, ports := ps', objs := st.objs ++ os }) ∧
      astItems A B N leaf os = some (evModItems A B N hdr x) ∧ astGenerics A B leaf gs = some (evBodyParams A B hdr x) ∧
      declares os (x.flatMap modItemNames)
  | [], _ => ⟨[], [], [], .nil, (fun st ps' h => by
      obtain rfl := Except.ok.inj h
      simp only [visitModItems, List.append_nil]), by simp only [astItems, evModItems], rfl, fun o ho => by cases ho⟩
  | .region g :: l, h => by
    simp only [okModItems] at h
    obtain ⟨r, h1, h2, h3, _⟩ := gItem_eval (N := N) hA hB hN (.region g) (by rw [okGItem]; exact h.1)
    obtain ⟨ds, gs, os, h0, h4, h5, h6, h7⟩ := modItems_eval hA hB hN hdr l h.2
    refine ⟨ds, gs, r ++ os, h0, ?_, ?_, ?_, ?_⟩
    · intro st ps' hps
      simp only [visitModItems, visitModItem, h1, h4 { st with objs := st.objs ++ r } ps' hps, bind, Except.bind, pure, Except.pure, List.append_assoc]
    · rw [evModItems]; rw [evGItem] at h2; exact astItems_append r os _ _ h2 h5
    · rw [h6]; rfl
    · rw [gItemNames] at h3; exact declares_append h3 h7
  | .item i :: l, h => by
    by_cases hp : ∃ d, i = .param d
    · obtain ⟨d, rfl⟩ := hp
      simp only [okModItems] at h
      obtain ⟨rfl, hd, hl⟩ := h
      obtain ⟨r, h1, h2, _⟩ := paramDecl_generic (B := B) hA d hd
      obtain ⟨ds, gs, os, h0, h4, h5, h6, h7⟩ := modItems_eval hA hB hN false l hl
      refine ⟨ds, r ++ gs, os, h0, ?_, ?_, ?_, ?_⟩
      · intro st ps' hps
        simp only [visitModItems, visitModItem, visitGenItem, h1, h4 { st with generics := st.generics ++ r } ps' hps, bind, Except.bind, pure, Except.pure,
          List.append_assoc, List.append_nil]
      · simp only [evModItems, Bool.false_eq_true, if_false, List.nil_append]; exact h5
      · simp only [evBodyParams, Bool.false_eq_true, if_false]; exact generics_append h2 h6
      · exact h7
    · have hi : okGenItem i ∧ okModItems hdr l := by
        rw [okModItems] at h
        · exact h
        · rintro d rfl; exact hp ⟨d, rfl⟩
      obtain ⟨r, h1, h2, h3, _⟩ := genItem_eval (N := N) hA hB hN i hi.1
      obtain ⟨ds, gs, os, h0, h4, h5, h6, h7⟩ := modItems_eval hA hB hN hdr l hi.2
      refine ⟨ds, gs, r ++ os, h0, ?_, ?_, ?_, ?_⟩
      · intro st ps' hps
        simp only [visitModItems, visitModItem, h1, h4 { st with objs := st.objs ++ r } ps' hps, bind, Except.bind, pure, Except.pure, List.append_assoc,
          List.append_nil]
      · rw [evModItems]
        · exact astItems_append r os _ _ h2 h5
        · rintro d rfl; exact hp ⟨d, rfl⟩
      · rw [evBodyParams]
        · exact h6
        · rintro d hd; injection hd with hd; exact hp ⟨d, hd⟩
      · exact declares_append h3 h7
  | .module_ m :: l, h => by
    simp only [okModItems] at h
    obtain ⟨o, h1, h2, h3⟩ := mod_eval hA hB hN m h.1
    obtain ⟨ds, gs, os, h0, h4, h5, h6, h7⟩ := modItems_eval hA hB hN hdr l h.2
    refine ⟨ds, gs, [o] ++ os, h0, ?_, ?_, ?_, ?_⟩
    · intro st ps' hps
      simp only [visitModItems, visitModItem, h1, h4 { st with objs := st.objs ++ [o] } ps' hps, bind, Except.bind, pure, Except.pure, List.append_assoc]
    · simp only [evModItems, List.cons_append, List.nil_append, astItems, h2, h5, Option.bind_eq_bind, Option.bind_some, pure]
    · rw [h6]; rfl
    · exact declares_append (nonDecl h3 []) h7
  | .port d :: l, h => by
    simp only [okModItems] at h
    obtain ⟨r, h1, h2⟩ := nonansiDecl_eval (B := B) hA d h.1
    obtain ⟨ds, gs, os, h0, h4, h5, h6, h7⟩ := modItems_eval hA hB hN hdr l h.2
    refine ⟨r ++ ds, gs, os, ?_, ?_, ?_, ?_, ?_⟩
    · rw [evBodyPorts]; exact List.rel_append h2 h0
    · intro st ps' hps
      obtain ⟨q, hq1, hq2⟩ := applyPortDecls_append r st.ports [] ps' ds hps
      simp only [visitModItems, visitModItem, h1, hq1, h4 { st with ports := q } ps' hq2, bind, Except.bind, pure, Except.pure]
    · rw [evModItems]; exact h5
    · rw [h6]; rfl
    · exact h7
  | .other :: _, h => by simp only [okModItems] at h
end

end Verif.Sv
