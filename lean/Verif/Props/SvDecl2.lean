import Verif.Props.SvDecl
/-!
# Packed dimensions, net types, directions of arguments, parameters (C64, C65, C66, C73)
-/
namespace Verif.Spec.Sv
open Verif Verif.Sv

/-- The names declared by the parameters of a module header. -/
def declParams : ParamDecl → List Ident
  | .type l => l.map (·.name)
  | .val _ l => l.map (·.name)

def portParams : PortParam → List Ident
  | .type l => l.map (·.name)
  | .param d => declParams d
  | .localparam d => declParams d
  | .typed _ l => l.map (·.name)

end Verif.Spec.Sv

namespace Verif.Sv
open Verif Verif.Spec.Sv

/-! ## C64: packed and unpacked dimensions -/

theorem wireT_open (kw : Str) (s : Sign) : isOpenWire (visitDPrim (.vec kw s)) = true := by
  cases s <;> rfl

theorem wireT_clone (kw : Str) (s : Sign) : (visitDPrim (.vec kw s)).clone = .ok (visitDPrim (.vec kw s)) := by
  cases s <;> rfl

theorem visitVDims_append (dims dims' : List VDim) : ∀ t e, visitVDims false t dims = .ok e →
    visitVDims false e dims' = visitVDims false t (dims ++ dims') := by
  induction dims with
  | nil => intro t e h; simp only [visitVDims, Except.ok.injEq] at h; rw [h]; rfl
  | cons d l ih =>
    intro t e h
    simp only [visitVDims, bind_ok, Bool.false_eq_true, if_false] at h
    obtain ⟨x, hx, h⟩ := h
    rw [ih _ _ h, List.cons_append]
    simp only [visitVDims, hx, bind, Except.bind, Bool.false_eq_true, if_false]

/-- C64 is violated: `logic a [..][..];` and `logic [..][..] a;` give the same object, for every type `logic`, `bit`, `reg` and all
dimensions that begin with a range. -/
theorem C64_violated (const : Bool) (life : Option Lifetime) (kw : Str) (s : Sign) (hk : isKw kw = true) (r : ARange) (dims : List VDim)
    (hr : okARange r) (hd : okVDims dims) (n : Ident) (i : VarInit) :
    visitDataDecl (.vars const life (some (.type (.prim (.vec kw s) []))) [⟨n, .range r :: dims, i⟩]) =
    visitDataDecl (.vars const life (some (.type (.prim (.vec kw s) (.range r :: dims)))) [⟨n, [], i⟩]) := by
  obtain ⟨e, h1, h2⟩ := dtype_eval Term.agrees (.prim (.vec kw s) (.range r :: dims)) (by simp only [okDType]; exact ⟨hk, hr, hd⟩)
  have hc := clone_of_eval e _ (plain_dtype _ e h1) h2
  have h3 : visitVDims true (visitDPrim (.vec kw s)) (.range r :: dims) = .ok e := by
    rw [← h1, visitDType, wireT_open]
  simp only [visitDataDecl, visitDTypeOrImpl, h1]
  have h4 : ∀ b t, visitVDims b t [] = .ok t := fun b t => by simp only [visitVDims]
  simp only [visitDType, h4, visitVarDecls, applyVDims, wireT_open, wireT_clone, h3, hc, bind, Except.bind, pure, Except.pure]

/-- C64 is violated for types with width, too: `logic [..] a [..];` and `logic [..][..] a;` give the same object. -/
theorem C64_violated_wide (const : Bool) (life : Option Lifetime) (kw : Str) (s : Sign) (hk : isKw kw = true) (a b : Exp) (dims dims' : List VDim)
    (hr : okARange (.range a b)) (hd : okVDims dims) (hd' : okVDims dims') (n : Ident) (i : VarInit) :
    visitDataDecl (.vars const life (some (.type (.prim (.vec kw s) (.range (.range a b) :: dims)))) [⟨n, dims', i⟩]) =
    visitDataDecl (.vars const life (some (.type (.prim (.vec kw s) (.range (.range a b) :: (dims ++ dims'))))) [⟨n, [], i⟩]) := by
  have hall : ∀ l l' : List VDim, okVDims l → okVDims l' → okVDims (l ++ l') := by
    intro l l'
    induction l with
    | nil => intro _ h; exact h
    | cons d l ih => intro h h'; simp only [okVDims, List.cons_append] at h ⊢; exact ⟨h.1, ih h.2 h'⟩
  obtain ⟨e, h1, h2⟩ := dtype_eval Term.agrees (.prim (.vec kw s) (.range (.range a b) :: dims)) (by simp only [okDType]; exact ⟨hk, hr, hd⟩)
  obtain ⟨e', h1', h2'⟩ := dtype_eval Term.agrees (.prim (.vec kw s) (.range (.range a b) :: (dims ++ dims')))
    (by simp only [okDType]; exact ⟨hk, hr, hall _ _ hd hd'⟩)
  have hc := clone_of_eval e _ (plain_dtype _ e h1) h2
  have hc' := clone_of_eval e' _ (plain_dtype _ e' h1') h2'
  have ho := closed_dtype _ e rfl h1
  have h3 : visitVDims false e dims' = .ok e' := by
    rw [visitDType, wireT_open] at h1 h1'
    simp only [visitVDims, bind_ok, if_true] at h1 h1'
    obtain ⟨x, hx, h4⟩ := h1
    obtain ⟨x', hx', h4'⟩ := h1'
    rw [hx] at hx'
    obtain rfl := Except.ok.inj hx'
    rw [visitVDims_append _ _ _ _ h4, h4']
  simp only [visitDataDecl, visitDTypeOrImpl, h1, h1', visitVarDecls, applyVDims, hc, hc', ho, h3, visitVDims, bind, Except.bind, pure,
    Except.pure]

/-- C64 in part: which dimensions a variable has and in which order can be read from the result. Missing: whether they are packed. -/
theorem C64_dimensions_partial (const const' : Bool) (life life' : Option Lifetime) (t t' : DType) (v v' : VarDecl) (hc : closedT t = true)
    (hc' : closedT t' = true) (ht : okDType t) (ht' : okDType t') (hd : okVDims v.dims) (hd' : okVDims v'.dims) (r : List Obj)
    (hr : visitDataDecl (.vars const life (some (.type t)) [v]) = .ok r)
    (hr' : visitDataDecl (.vars const' life' (some (.type t')) [v']) = .ok r) :
    evVDims Term.alg (evDType Term.alg t) v.dims = evVDims Term.alg (evDType Term.alg t') v'.dims ∧ const = const' ∧
      identStr v.name = identStr v'.name := by
  obtain ⟨d, h1, h2, h3, -, h4⟩ := C43_variable_meaning_partial _ _ Term.agrees const life t v hc ht hd r hr
  obtain ⟨d', h1', h2', h3', -, h4'⟩ := C43_variable_meaning_partial _ _ Term.agrees const' life' t' v' hc' ht' hd' r hr'
  rw [h1] at h1'
  simp only [List.cons.injEq, Obj.id.injEq, and_true] at h1'
  subst h1'
  exact ⟨Option.some.inj (h4.symm.trans h4'), h3.symm.trans h3', h2.trans h2'.symm⟩

/-- Hypotheses of the theorems on C64: `logic [W:Z] a [X:Y];` -/
example : isKw (c! "logic") = true ∧ okARange (exRange (c! "W") (c! "Z")) ∧ okVDims [.range (exRange (c! "X") (c! "Y"))] :=
  ⟨by decide +kernel, ok_exRange _ _ (by decide +kernel) (by decide +kernel),
    by simp only [okVDims, okVDim]; exact ⟨ok_exRange _ _ (by decide +kernel) (by decide +kernel), trivial⟩⟩

/-! ## C65: net types -/

/-- C65 in part: a net declaration with an implicit type that has a dimension keeps the net type: it is the first operand of the type. -/
theorem C65_ranged_partial (kw : Str) (s : Sign) (r : ARange) (v : NetAssign) (hv : v.dims = []) (ds : List IdDef)
    (h : visitNetDecl (.net kw false (some (.impl ⟨s, [some r]⟩)) [v]) = .ok ds) :
    ∃ d w, ds = [d] ∧ identStr v.name = .ok d.name ∧ d.type = .op none .PARAMETRIZATION [.id none kw, w, signE s] := by
  simp only [visitNetDecl, Bool.false_eq_true, if_false, visitDTypeOrImpl, visitImplType, visitPackedDim, visitPackedDims, bind_ok,
    visitNetAssigns, visitNetAssignsRest, visitNetAssign, hv, visitUnpackedDims, pure_ok, Except.ok.injEq] at h
  obtain ⟨t, ⟨w, _, rfl⟩, d, ⟨n, hn, x, _, _, rfl, rfl⟩, _, rfl, rfl⟩ := h
  cases w with
  | null => exact ⟨_, .symb none .NULL, rfl, hn, by cases s <;> rfl⟩
  | _ => exact ⟨_, _, rfl, hn, by cases s <;> rfl⟩

/-- C65, two declarations of this form with different net types are different. -/
theorem C65_ranged_distinct (kw kw' : Str) (s s' : Sign) (r r' : ARange) (v v' : NetAssign) (hv : v.dims = []) (hv' : v'.dims = [])
    (ds : List IdDef) (h : visitNetDecl (.net kw false (some (.impl ⟨s, [some r]⟩)) [v]) = .ok ds)
    (h' : visitNetDecl (.net kw' false (some (.impl ⟨s', [some r']⟩)) [v']) = .ok ds) : kw = kw' := by
  obtain ⟨d, w, h1, -, h2⟩ := C65_ranged_partial kw s r v hv ds h
  obtain ⟨d', w', h1', -, h2'⟩ := C65_ranged_partial kw' s' r' v' hv' ds h'
  rw [h1] at h1'
  simp only [List.cons.injEq, and_true] at h1'
  subst h1'
  rw [h2] at h2'
  simp only [Expr.op.injEq, List.cons.injEq, Expr.id.injEq, true_and, and_true] at h2'
  exact h2'.1

/-- C65 is violated for nets without dimensions: `wire a;`, `wand a;`, `supply0 a;` all give the automatic type. -/
theorem C65_violated_scalar (kw kw' : Str) (l : List NetAssign) :
    visitNetDecl (.net kw false none l) = visitNetDecl (.net kw' false none l) ∧
    visitNetDecl (.net kw false none [⟨idI (c! "a"), [], none⟩]) =
      .ok [{ name := c! "a", type := .symb none .T_AUTO, value := .null }] := ⟨rfl, rfl⟩

/-- C65 is violated for signed nets without dimensions: `wand signed a;` is `wire signed a;`. -/
theorem C65_violated_signed (kw kw' : Str) (s : Sign) (l : List NetAssign) :
    visitNetDecl (.net kw false (some (.impl ⟨s, []⟩)) l) = visitNetDecl (.net kw' false (some (.impl ⟨s, []⟩)) l) := rfl

/-- C65 is violated for nets with a data type: `wand logic [3:0] a;` is `wire logic [3:0] a;`; the result is the type of the variable
`logic [3:0] a;`. -/
theorem C65_violated_data_type (kw kw' : Str) (t : DType) (l : List NetAssign) :
    visitNetDecl (.net kw false (some (.type t)) l) = visitNetDecl (.net kw' false (some (.type t)) l) := rfl

/-- C65 is violated for user-defined net types: `foo a;` as a net declaration does not name `foo`. -/
theorem C65_violated_user (i i' : Ident) (l : List NetAssign) : visitNetDecl (.user i l) = visitNetDecl (.user i' l) := rfl

/-- C65 and C73 are violated for nets with a strength or `vectored`/`scalared`: the whole declaration is dropped. -/
theorem C65_violated_strength (kw : Str) (t : Option DTypeOrImpl) (l : List NetAssign) : visitNetDecl (.net kw true t l) = .ok [] := rfl

/-- `wand [W:Z] a = v;` -/
example : ∃ ds, visitNetDecl (.net (c! "wand") false (some (.impl ⟨.none, [some (exRange (c! "W") (c! "Z"))]⟩))
    [⟨idI (c! "a"), [], some (idE (c! "v"))⟩]) = .ok ds := by
  simp only [visitNetDecl, visitDTypeOrImpl, visitImplType, visitPackedDim, visitPackedDims, visit_exRange, visitNetAssigns, visitNetAssign,
    visitNetAssignsRest, visitUnpackedDims, identStr, idI, visitOptExp, visit_idE, bind, Except.bind, pure, Except.pure, Bool.false_eq_true,
    if_false]
  exact ⟨_, rfl⟩

/-! ## C66: directions of the arguments of tasks and functions -/

/-- C66 in part: arguments declared in the body of a task or function without `var` have the direction of their declaration, and the names in
order. -/
theorem C66_body_partial (d : TfPortDecl) (hv : d.var = false) (r : List IdDef) (h : visitTfPortDecl d = .ok r) :
    List.Forall₂ (fun v x => identStr v.name = .ok x.name ∧ x.dir = tfDirOf d.dir) d.items r := by
  have one : ∀ t v x, visitVarId false d.dir.toDir t v = .ok x → identStr v.name = .ok x.name ∧ x.dir = tfDirOf d.dir := by
    intro t v x h
    simp only [visitVarId, bind_ok, pure_ok] at h
    obtain ⟨_, _, n, hn, _, _, rfl⟩ := h
    refine ⟨hn, ?_⟩
    cases d.dir with
    | constRef => rfl
    | dir p => cases p <;> rfl
  have rest : ∀ (base : Expr) (l : List VarId) (r : List IdDef), visitVarIdsRest false d.dir.toDir base l = .ok r →
      List.Forall₂ (fun v x => identStr v.name = .ok x.name ∧ x.dir = tfDirOf d.dir) l r := by
    intro base l
    induction l with
    | nil => intro r h; simp only [visitVarIdsRest, Except.ok.injEq] at h; rw [← h]; exact .nil
    | cons v l ih =>
      intro r h
      simp only [visitVarIdsRest, bind_ok, pure_ok] at h
      obtain ⟨t, _, d, hd, l', hl', rfl⟩ := h
      exact .cons (one _ _ _ hd) (ih _ hl')
  simp only [visitTfPortDecl, hv, Bool.false_eq_true, if_false, bind_ok] at h
  obtain ⟨t, _, h⟩ := h
  cases hl : d.items with
  | nil => rw [hl] at h; simp only [visitVarIds, Except.ok.injEq] at h; rw [← h]; exact .nil
  | cons v l =>
    rw [hl] at h
    simp only [visitVarIds, bind_ok, pure_ok] at h
    obtain ⟨x, hx, b, _, l', hl', rfl⟩ := h
    exact .cons (one _ _ _ hx) (rest _ _ _ hl')

/-- C66 is violated for arguments in parentheses: every argument is an input, whatever is written. -/
theorem C66_violated_ansi (p : TfPort) (d : Option TfDir) : visitTfPort { p with dir := d } = visitTfPort p ∧
    ∀ x, visitTfPort p = .ok x → x.dir = .IN := by
  refine ⟨rfl, fun x h => ?_⟩
  simp only [visitTfPort, bind_ok, pure_ok] at h
  obtain ⟨_, _, _, _, _, _, _, _, rfl⟩ := h
  rfl

/-- C66 is violated for declarations with `var` in the body: `output var logic a;` gives the direction `LINKAGE`. -/
theorem C66_violated_var (d : TfDir) (a : Str) : visitTfPortDecl ⟨d, true, some (.type exLogic), [⟨idI a, [], none⟩]⟩ =
    .ok [{ name := a, type := astLogic (.symb none .NULL), value := .null, dir := .LINKAGE }] := by
  simp only [visitTfPortDecl, visitDTypeOrImpl, visit_exLogic, visitVarIds, visitVarId, applyVDims, visitVDims, afterDims, visitVarIdsRest,
    identStr, idI, visitOptExp, bind, Except.bind, pure, Except.pure]
  rfl

/-- `output logic a, b;` -/
example : ∃ r, visitTfPortDecl ⟨.dir .output, false, some (.type exLogic), [⟨idI (c! "a"), [], none⟩, ⟨idI (c! "b"), [], none⟩]⟩ = .ok r := by
  simp only [visitTfPortDecl, visitDTypeOrImpl, visit_exLogic, visitVarIds, visitVarId, applyVDims, visitVDims, afterDims, visitVarIdsRest,
    identStr, idI, visitOptExp, bind, Except.bind, pure, Except.pure]
  exact ⟨_, rfl⟩

/-! ## C73: every declared name is returned -/

theorem paramAssigns_names (l : List ParamAssign) : ∀ r, visitParamAssigns l = .ok r →
    List.Forall₂ (fun n x => identStr n = .ok x.name) (l.map (·.name)) r := by
  induction l with
  | nil => intro r h; simp only [visitParamAssigns, Except.ok.injEq] at h; rw [← h]; exact .nil
  | cons p l ih =>
    intro r h
    simp only [visitParamAssigns, visitParamAssign, bind_ok, pure_ok] at h
    obtain ⟨x, ⟨_, _, n, hn, rfl⟩, l', hl, rfl⟩ := h
    exact .cons hn (ih _ hl)

theorem typeAssigns_names (l : List TypeAssign) : ∀ r, visitTypeAssigns l = .ok r →
    List.Forall₂ (fun n x => identStr n = .ok x.name) (l.map (·.name)) r := by
  induction l with
  | nil => intro r h; simp only [visitTypeAssigns, Except.ok.injEq] at h; rw [← h]; exact .nil
  | cons p l ih =>
    intro r h
    simp only [visitTypeAssigns, bind_ok, pure_ok] at h
    obtain ⟨n, hn, v, _, l', hl, rfl⟩ := h
    exact .cons hn (ih _ hl)

theorem setTypes_names (t : Expr) (l : List IdDef) : ∀ r, setTypesRest t l = .ok r → r.map (·.name) = l.map (·.name) := by
  induction l with
  | nil => intro r h; simp only [setTypesRest, Except.ok.injEq] at h; rw [← h]
  | cons d l ih =>
    intro r h
    simp only [setTypesRest, bind_ok, pure_ok] at h
    obtain ⟨_, _, l', hl, rfl⟩ := h
    simp only [List.map_cons, ih _ hl]

theorem forall₂_names (l : List Ident) (r r' : List IdDef) (h : List.Forall₂ (fun n x => identStr n = .ok x.name) l r)
    (e : r'.map (·.name) = r.map (·.name)) : List.Forall₂ (fun n x => identStr n = .ok x.name) l r' := by
  have : List.Forall₂ (fun n x => identStr n = .ok x) l (r.map (·.name)) := by rw [List.forall₂_map_right_iff]; exact h
  rw [← e, List.forall₂_map_right_iff] at this
  exact this

theorem typedParams_names (t : Expr) (l : List ParamAssign) (r : List IdDef) (h : visitTypedParams t l = .ok r) :
    List.Forall₂ (fun n x => identStr n = .ok x.name) (l.map (·.name)) r := by
  simp only [visitTypedParams, bind_ok] at h
  obtain ⟨l1, h1, h⟩ := h
  have hn := paramAssigns_names l l1 h1
  cases l1 with
  | nil => rw [pure_ok] at h; rw [← h]; exact hn
  | cons d l1 =>
    simp only [bind_ok, pure_ok] at h
    obtain ⟨l2, h2, rfl⟩ := h
    exact forall₂_names _ _ _ hn (by simp only [List.map_cons, setTypes_names t l1 l2 h2])

theorem paramDecl_names (d : ParamDecl) (r : List IdDef) (h : visitParamDecl d = .ok r) :
    List.Forall₂ (fun n x => identStr n = .ok x.name) (declParams d) r := by
  cases d with
  | type l => exact typeAssigns_names l r h
  | val t l =>
    simp only [visitParamDecl, bind_ok] at h
    obtain ⟨e, _, h⟩ := h
    exact typedParams_names e l r h

theorem localparam_names (d : ParamDecl) (r : List IdDef) (h : visitLocalparam d = .ok r) :
    List.Forall₂ (fun n x => identStr n = .ok x.name) (declParams d) r ∧ ∀ x ∈ r, x.const = true := by
  simp only [visitLocalparam, bind_ok, pure_ok] at h
  obtain ⟨l, hl, rfl⟩ := h
  refine ⟨forall₂_names _ _ _ (paramDecl_names d l hl) (by rw [List.map_map]; rfl), ?_⟩
  intro x hx
  obtain ⟨y, _, rfl⟩ := List.mem_map.1 hx
  rfl

/-- C73, parameters in the header of a module, `#(parameter .., localparam .., type ..)`: every declared name is returned exactly once, in
order. Missing: lists that begin with assignments without keyword (`C73_violated_header`). -/
theorem C73_header_parameters_partial (l : List PortParam) (r : List IdDef) (h : visitParamPorts (.decls l) = .ok r) :
    List.Forall₂ (fun n x => identStr n = .ok x.name) (l.flatMap portParams) r := by
  simp only [visitParamPorts] at h
  induction l generalizing r with
  | nil => simp only [visitPortParams, Except.ok.injEq] at h; rw [← h]; exact .nil
  | cons p l ih =>
    simp only [visitPortParams, bind_ok, pure_ok] at h
    obtain ⟨r1, h1, r2, h2, rfl⟩ := h
    rw [List.flatMap_cons]
    refine List.rel_append ?_ (ih r2 h2)
    cases p with
    | type l => exact typeAssigns_names l r1 h1
    | param d => exact paramDecl_names d r1 h1
    | localparam d => exact (localparam_names d r1 h1).1
    | typed t l =>
      simp only [visitPortParam, bind_ok] at h1
      obtain ⟨e, _, h1⟩ := h1
      exact typedParams_names e l r1 h1

/-- C73 is violated: `#(A = 1, parameter B = 2)` declares `A` only; everything after the assignments is ignored. -/
theorem C73_violated_header (l : List ParamAssign) (rest rest' : List PortParam) :
    visitParamPorts (.assigns l rest) = visitParamPorts (.assigns l rest') := rfl

/-- C73 and C43 are violated: the dimensions of a parameter are ignored. -/
theorem C73_violated_parameter_dimensions (t : Option DTypeOrImpl) (n : Ident) (dims dims' : List ARange) (v : Option PExpr) :
    visitParamDecl (.val t [⟨n, dims, v⟩]) = visitParamDecl (.val t [⟨n, dims', v⟩]) := rfl

/-- C73, variables: the objects have the names of the declaration, in order. -/
theorem C73_variables (const : Bool) (life : Option Lifetime) (t : Option DTypeOrImpl) (l : List VarDecl) (r : List Obj)
    (h : visitDataDecl (.vars const life t l) = .ok r) :
    ∃ ds : List IdDef, r = ds.map .id ∧ List.Forall₂ (fun n x => identStr n = .ok x.name) (l.map (·.name)) ds ∧
      ∀ d ∈ ds, d.const = const ∧ d.dir = .INTERNAL := by
  simp only [visitDataDecl, bind_ok, pure_ok] at h
  obtain ⟨e, _, ds, hds, rfl⟩ := h
  refine ⟨ds.map fun d => { d with const := const, static := visitLifetime life }, by rw [List.map_map]; rfl, ?_⟩
  have key : ∀ (l : List VarDecl) (ds : List IdDef), visitVarDecls e l = .ok ds →
      List.Forall₂ (fun n x => identStr n = .ok x.name) (l.map (·.name)) ds ∧ ∀ d ∈ ds, d.dir = .INTERNAL := by
    intro l
    induction l with
    | nil => intro ds h; simp only [visitVarDecls, Except.ok.injEq] at h; rw [← h]; exact ⟨.nil, by simp⟩
    | cons v l ih =>
      intro ds h
      simp only [visitVarDecls, bind_ok, pure_ok] at h
      obtain ⟨n, hn, _, _, _, _, _, _, l', hl, rfl⟩ := h
      obtain ⟨h1, h2⟩ := ih _ hl
      refine ⟨.cons hn h1, ?_⟩
      intro d hd
      rcases List.mem_cons.1 hd with rfl | h
      · rfl
      · exact h2 d h
  obtain ⟨h1, h2⟩ := key l ds hds
  refine ⟨forall₂_names _ _ _ h1 (by rw [List.map_map]; rfl), ?_⟩
  intro d hd
  obtain ⟨x, hx, rfl⟩ := List.mem_map.1 hd
  exact ⟨rfl, h2 x hx⟩

/-- `#(parameter A = v, localparam B = w)` -/
example : ∃ r, visitParamPorts (.decls [.param (.val none [⟨idI (c! "A"), [], some (.mtm (.one (idE (c! "v"))))⟩]),
    .localparam (.val none [⟨idI (c! "B"), [], some (.mtm (.one (idE (c! "w"))))⟩])]) = .ok r := by
  simp only [visitParamPorts, visitPortParams, visitPortParam, visitLocalparam, visitParamDecl, visitDTypeOrImpl, visitTypedParams,
    visitParamAssigns, visitParamAssign, visitPExpr, visitMTM, visit_idE, identStr, idI, bind, Except.bind, pure, Except.pure]
  exact ⟨_, rfl⟩

end Verif.Sv
