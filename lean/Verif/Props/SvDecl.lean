import Verif.Props.SvExpr
import Verif.SvDeclLemmas
/-!
# Several names in one SystemVerilog declaration (C43)
-/
namespace Verif.Sv
open Verif Verif.Spec.Sv

/-! ## C43: several names in one declaration -/

theorem mapM_ok_cons {α β : Type} {f : α → Except Exc β} {x : α} {l : List α} {y : β} {r : List β} (h1 : f x = .ok y)
    (h2 : l.mapM f = .ok r) : (x :: l).mapM f = .ok (y :: r) := by
  rw [List.mapM_cons, h1, h2]
  rfl

theorem mapM_ok_inv {α β : Type} {f : α → Except Exc β} : ∀ {l : List α} {r : List β}, l.mapM f = .ok r →
    List.Forall₂ (fun x y => f x = .ok y) l r := by
  intro l
  induction l with
  | nil =>
    intro r h
    rw [List.mapM_nil, pure_ok] at h
    rw [← h]; exact .nil
  | cons x l ih =>
    intro r h
    simp only [List.mapM_cons, bind_ok, pure_ok] at h
    obtain ⟨y, h1, r', h2, rfl⟩ := h
    exact .cons h1 (ih h2)

theorem mapM_of_forall₂ {α β : Type} {f : α → Except Exc β} {l : List α} {r : List β}
    (h : List.Forall₂ (fun x y => f x = .ok y) l r) : l.mapM f = .ok r := by
  induction h with
  | nil => rfl
  | cons h1 _ ih => exact mapM_ok_cons h1 ih

/-- C43, variables: what `t a [..] = .., b [..] = ..;` gives is what `t a [..] = ..; t b [..] = ..;` gives. -/
theorem C43_variables (const : Bool) (life : Option Lifetime) (t : Option DTypeOrImpl) (l : List VarDecl) (r : List Obj)
    (h : visitDataDecl (.vars const life t l) = .ok r) :
    l.mapM (fun v => visitDataDecl (.vars const life t [v])) = .ok (r.map fun o => [o]) := by
  simp only [visitDataDecl, bind_ok, pure_ok] at h
  obtain ⟨e, he, ds, hds, rfl⟩ := h
  have key : ∀ (l : List VarDecl) (ds : List IdDef), visitVarDecls e l = .ok ds →
      List.Forall₂ (fun v d => visitVarDecls e [v] = .ok [d]) l ds := by
    intro l
    induction l with
    | nil => intro ds h; simp only [visitVarDecls, Except.ok.injEq] at h; rw [← h]; exact .nil
    | cons v l ih =>
      intro ds h
      have h' := visitVarDecls_append e [v] l
      rw [List.singleton_append, h, eq_comm] at h'
      simp only [bind_ok, pure_ok] at h'
      obtain ⟨a, ha, b, hb, rfl⟩ := h'
      simp only [visitVarDecls, bind_ok, pure_ok, Except.ok.injEq] at ha
      obtain ⟨n, h1, c, h2, t', h3, i, h4, _, rfl, rfl⟩ := ha
      refine .cons ?_ (ih b hb)
      simp only [visitVarDecls, h1, h2, h3, h4, bind, Except.bind, pure, Except.pure]
  apply mapM_of_forall₂
  rw [List.map_map, List.forall₂_map_right_iff]
  refine (key l ds hds).imp fun v d hd => ?_
  simp only [visitDataDecl, he, hd, bind, Except.bind, pure, Except.pure, List.map_cons, List.map_nil, Function.comp]

theorem netAssigns_each (base : Expr) (hp : plain base = true) (l : List NetAssign) (r : List IdDef)
    (h : visitNetAssigns base l = .ok r) : List.Forall₂ (fun n d => visitNetAssigns base [n] = .ok [d]) l r := by
  have one : ∀ (n : NetAssign) (d : IdDef), visitNetAssign base n = .ok d → visitNetAssigns base [n] = .ok [d] := by
    intro n d h
    simp only [visitNetAssigns, visitNetAssignsRest, h, bind, Except.bind, pure, Except.pure]
  cases l with
  | nil => simp only [visitNetAssigns, Except.ok.injEq] at h; rw [← h]; exact .nil
  | cons n l =>
    simp only [visitNetAssigns, bind_ok, pure_ok] at h
    obtain ⟨d, hd, ds, hds, rfl⟩ := h
    refine .cons (one _ _ hd) ?_
    cases l with
    | nil => simp only [visitNetAssignsRest, Except.ok.injEq] at hds; rw [← hds]; exact .nil
    | cons n2 l =>
      rcases plain_clone_cases base hp with hc | ⟨x, hx⟩
      · rw [visitNetAssignsRest_eq base hc] at hds
        exact (mapM_ok_inv hds).imp one
      · rw [visitNetAssignsRest, hx] at hds
        cases hds

/-- C43, nets: what `wire t a [..], b [..];` gives is what `wire t a [..]; wire t b [..];` gives. -/
theorem C43_nets (kw : Str) (t : Option DTypeOrImpl) (l : List NetAssign) (r : List IdDef)
    (h : visitNetDecl (.net kw false t l) = .ok r) :
    l.mapM (fun v => visitNetDecl (.net kw false t [v])) = .ok (r.map fun d => [d]) := by
  simp only [visitNetDecl, Bool.false_eq_true, if_false, bind_ok] at h
  obtain ⟨e, he, h⟩ := h
  apply mapM_of_forall₂
  rw [List.forall₂_map_right_iff]
  refine (netAssigns_each e (plain_dtypeOrImpl _ rfl _ _ he) l r h).imp fun v d hd => ?_
  simp only [visitNetDecl, Bool.false_eq_true, if_false, he, bind, Except.bind, hd]

/-- C43, parameters: what `parameter t a = .., b = ..;` gives is what `parameter t a = ..; parameter t b = ..;` gives. -/
theorem C43_parameters (t : Option DTypeOrImpl) (l : List ParamAssign) (r : List IdDef)
    (h : visitParamDecl (.val t l) = .ok r) :
    l.mapM (fun v => visitParamDecl (.val t [v])) = .ok (r.map fun d => [d]) := by
  simp only [visitParamDecl, bind_ok] at h
  obtain ⟨e, he, h⟩ := h
  have hp := plain_dtypeOrImpl _ rfl _ _ he
  have one : ∀ (n : ParamAssign) (d : IdDef), visitParamAssign n = .ok d → visitTypedParams e [n] = .ok [{ d with type := e }] := by
    intro n d h
    simp only [visitTypedParams, visitParamAssigns, setTypesRest, h, bind, Except.bind, pure, Except.pure]
  have assigns : ∀ (l : List ParamAssign) (ds : List IdDef), visitParamAssigns l = .ok ds →
      List.Forall₂ (fun n d => visitParamAssign n = .ok d) l ds := by
    intro l
    induction l with
    | nil => intro ds h; simp only [visitParamAssigns, Except.ok.injEq] at h; rw [← h]; exact .nil
    | cons n l ih =>
      intro ds h
      simp only [visitParamAssigns, bind_ok, pure_ok] at h
      obtain ⟨d, hd, ds', hds, rfl⟩ := h
      exact .cons hd (ih ds' hds)
  have rest : ∀ (ds r : List IdDef), setTypesRest e ds = .ok r → r = ds.map fun d => { d with type := e } := by
    intro ds
    induction ds with
    | nil => intro r h; simp only [setTypesRest, Except.ok.injEq] at h; rw [← h]; rfl
    | cons d ds ih =>
      intro r h
      simp only [setTypesRest, bind_ok, pure_ok] at h
      obtain ⟨e', he', r', hr', rfl⟩ := h
      rw [plain_clone e e' hp he', ih r' hr']
      rfl
  have all : List.Forall₂ (fun n d => visitTypedParams e [n] = .ok [d]) l r := by
    simp only [visitTypedParams, bind_ok] at h
    obtain ⟨ds, hds, h⟩ := h
    have ha := assigns l ds hds
    cases ds with
    | nil =>
      simp only [pure_ok] at h
      cases ha
      rw [← h]; exact .nil
    | cons d ds =>
      simp only [bind_ok, pure_ok] at h
      obtain ⟨r', hr', rfl⟩ := h
      rw [rest ds r' hr']
      have : ({ d with type := e } :: ds.map fun d => { d with type := e } : List IdDef) =
          (d :: ds).map fun d => { d with type := e } := rfl
      rw [this, List.forall₂_map_right_iff]
      exact ha.imp one
  apply mapM_of_forall₂
  rw [List.forall₂_map_right_iff]
  refine all.imp fun v d hd => ?_
  simp only [visitParamDecl, he, bind, Except.bind, hd]

theorem afterDims_closed (base : Expr) (ho : isOpenWire base = false) (dims : List VDim) : afterDims base dims = .ok base := by
  cases dims with
  | nil => rfl
  | cons d l => simp [afterDims, ho]

theorem varIds_each (lat : Bool) (dir : Dir) (base : Expr) (hp : plain base = true) (ho : isOpenWire base = false) (l : List VarId)
    (r : List IdDef) (h : visitVarIds lat dir base l = .ok r) :
    List.Forall₂ (fun n d => visitVarIds lat dir base [n] = .ok [d]) l r := by
  have one : ∀ (n : VarId) (d : IdDef), visitVarId lat dir base n = .ok d → visitVarIds lat dir base [n] = .ok [d] := by
    intro n d h
    simp only [visitVarIds, visitVarIdsRest, afterDims_closed base ho, h, bind, Except.bind, pure, Except.pure]
  cases l with
  | nil => simp only [visitVarIds, Except.ok.injEq] at h; rw [← h]; exact .nil
  | cons n l =>
    simp only [visitVarIds, afterDims_closed base ho, bind_ok, pure_ok, Except.ok.injEq] at h
    obtain ⟨d, hd, _, rfl, ds, hds, rfl⟩ := h
    refine .cons (one _ _ hd) ?_
    cases l with
    | nil => simp only [visitVarIdsRest, Except.ok.injEq] at hds; rw [← hds]; exact .nil
    | cons n2 l =>
      rcases plain_clone_cases base hp with hc | ⟨x, hx⟩
      · rw [visitVarIdsRest_eq lat dir base hc] at hds
        exact (mapM_ok_inv hds).imp one
      · rw [visitVarIdsRest, hx] at hds
        cases hds

/-- C43, port declarations inside of a module (`input t a [..], b [..];`), if the type has its width. Missing: types without width, see
`C43_violated_port_declaration`. -/
theorem C43_port_declarations_partial (d : NonansiDecl) (r : List IdDef) (hc : closedDecl d = true) (h : visitNonansiDecl d = .ok r) :
    (names d).mapM (fun v => visitNonansiDecl (only v d)) = .ok (r.map fun x => [x]) := by
  apply mapM_of_forall₂
  rw [List.forall₂_map_right_iff]
  cases d with
  | inout t l =>
    simp only [visitNonansiDecl, bind_ok] at h
    obtain ⟨e, he, h⟩ := h
    refine (varIds_each _ _ e (plain_netPort _ _ he) (closed_netPort _ _ hc he) l r h).imp fun v x hx => ?_
    simp only [only, visitNonansiDecl, he, hx, bind, Except.bind]
  | input t l =>
    simp only [visitNonansiDecl, bind_ok] at h
    obtain ⟨e, he, h⟩ := h
    refine (varIds_each _ _ e.1 (plain_netOrVar _ _ he) (closed_netOrVar _ _ hc he) l r h).imp fun v x hx => ?_
    simp only [only, visitNonansiDecl, he, hx, bind, Except.bind]
  | output t l =>
    simp only [visitNonansiDecl, bind_ok] at h
    obtain ⟨e, he, h⟩ := h
    refine (varIds_each _ _ e.1 (plain_netOrVar _ _ he) (closed_netOrVar _ _ hc he) l r h).imp fun v x hx => ?_
    simp only [only, visitNonansiDecl, he, hx, bind, Except.bind]
  | iface i m l =>
    simp only [visitNonansiDecl, bind_ok] at h
    obtain ⟨e, he, e', he', h⟩ := h
    have hp : plain e' = true ∧ isOpenWire e' = false := by
      cases m with
      | none =>
        simp only [Except.ok.injEq] at he'
        rw [← he']; exact ⟨plain_ident _ _ he, isOpenWire_ident _ _ he⟩
      | some m =>
        simp only [bind_ok, pure_ok] at he'
        obtain ⟨m', hm', rfl⟩ := he'
        exact ⟨plain_mkBin _ _ _ (plain_ident _ _ he) (plain_ident _ _ hm'), isOpenWire_mkBin _ _ _ (by decide)⟩
    refine (varIds_each _ _ e' hp.1 hp.2 l r h).imp fun v x hx => ?_
    simp only [only, visitNonansiDecl, he, bind_ok]
    exact ⟨e, rfl, e', he', hx⟩
  | ref t l =>
    simp only [visitNonansiDecl, bind_ok] at h
    obtain ⟨e, he, h⟩ := h
    refine (varIds_each _ _ e (plain_varDType _ _ he) (closed_varDType _ _ hc he) l r h).imp fun v x hx => ?_
    simp only [only, visitNonansiDecl, he, hx, bind, Except.bind]

/-- C43, ports declared inside of a task or function, if the type has its width. -/
theorem C43_tf_ports_partial (d : TfPortDecl) (r : List IdDef) (hc : closedI d.type = true) (h : visitTfPortDecl d = .ok r) :
    d.items.mapM (fun v => visitTfPortDecl { d with items := [v] }) = .ok (r.map fun x => [x]) := by
  simp only [visitTfPortDecl, bind_ok] at h
  obtain ⟨e, he, h⟩ := h
  apply mapM_of_forall₂
  rw [List.forall₂_map_right_iff]
  refine (varIds_each _ _ e (plain_dtypeOrImpl _ rfl _ _ he) (closed_dtypeOrImpl _ _ _ hc he) d.items r h).imp fun v x hx => ?_
  simp only [visitTfPortDecl, he, hx, bind, Except.bind]

/-! ### ANSI port lists -/

/-- What the header of a port gives, for the headers in question. -/
theorem head_spec (h : AnsiHead) (hg : groupHead h = true) (r : Expr × Bool) (hr : visitAnsiHead h = .ok r) :
    r.2 = false ∧ plain r.1 = true ∧ isOpenWire r.1 = false ∧ (r.1 = .null → ∃ d, h = .dir d none) := by
  match h with
  | .none => simp [groupHead] at hg
  | .dir d none => simp only [visitAnsiHead, Except.ok.injEq] at hr; subst hr; exact ⟨rfl, rfl, rfl, fun _ => ⟨d, rfl⟩⟩
  | .dir _ (some t) | .type t =>
    simp only [visitAnsiHead] at hr
    simp only [groupHead, Bool.and_eq_true] at hg
    refine ⟨latched_netOrVar _ _ ?_ hr, plain_netOrVar _ _ hr, closed_netOrVar _ _ hg.1 hr, fun hn => absurd hn (ne_null_netOrVar _ _ hr)⟩
    rintro x hx
    cases hx
    simp [notVar] at hg
  | .iface i m =>
    simp only [visitAnsiHead, visitIface, bind_ok, pure_ok] at hr
    obtain ⟨a, ⟨b, hb, ha⟩, rfl⟩ := hr
    have hb' : plain b = true ∧ isOpenWire b = false ∧ b ≠ .null := by
      cases i with
      | none => simp only [Except.ok.injEq] at hb; rw [← hb]; exact ⟨rfl, rfl, by simp⟩
      | some i =>
        dsimp only at hb
        refine ⟨plain_ident _ _ hb, isOpenWire_ident _ _ hb, ?_⟩
        simp only [visitIdent, bind_ok, pure_ok] at hb
        obtain ⟨s, -, rfl⟩ := hb; simp
    cases m with
    | none => rw [pure_ok] at ha; rw [← ha]; exact ⟨rfl, hb'.1, hb'.2.1, fun h => absurd h hb'.2.2⟩
    | some m =>
      simp only [bind_ok, pure_ok] at ha
      obtain ⟨m', hm', rfl⟩ := ha
      refine ⟨rfl, plain_append _ _ _ hb'.1 (plain_ident _ _ hm'), isOpenWire_append _ _ _ (by decide) (isOpenWire_ident _ _ hm'), ?_⟩
      intro hn
      exfalso
      revert hn
      unfold appendExpr
      split
      · exact fun _ => hb'.2.2 rfl
      · simp [Expr.mkBin]


/-- The type shared by a group of ports. -/
def groupBase : Expr → Expr
  | .null => .id none (c! "wire")
  | e => e

theorem groupBase_spec (e : Expr) (hp : plain e = true) (ho : isOpenWire e = false) :
    plain (groupBase e) = true ∧ isOpenWire (groupBase e) = false ∧ groupBase e ≠ .null := by
  cases e <;> exact ⟨hp, ho, by simp [groupBase]⟩

theorem ansiBase_group (e pb : Expr) (h : e = .null → pb = .null) : ansiBase e pb = .ok (groupBase e) := by
  cases e with
  | null => rw [h rfl]; rfl
  | _ => cases pb <;> rfl

theorem ansiBase_follow (b : Expr) (hb : b ≠ .null) : ansiBase .null b = b.clone := by
  cases b <;> first | rfl | exact absurd rfl hb

theorem ansiPort_head (h : AnsiHead) (r : Expr × Bool) (hg : groupHead h = true) (hr : visitAnsiHead h = .ok r)
    (D : Option Dir) (pb : Expr) (f : Follower) :
    visitAnsiPort D pb (f.withHead h) = (do
      let name ← identStr f.name
      let t ← applyVDims (groupBase r.1) f.dims
      let v ← visitOptExp f.value
      pure ({ name := name, type := t, value := v, latched := false,
              dir := match (f.withHead h).dir? with | some d => d.toDir | none => (match D with | some d => d | none => .UNKNOWN) },
        groupBase r.1)) := by
  obtain ⟨h1, h2, h3, h4⟩ := head_spec h hg r hr
  obtain ⟨e, lat⟩ := r
  dsimp only at h1 h2 h3 h4 ⊢
  subst h1
  unfold Follower.withHead
  unfold visitAnsiPort
  simp only [hr, bind, Except.bind, pure, Except.pure]
  cases identStr f.name <;> try rfl
  dsimp only
  rw [ansiBase_group e _ (fun hn => by obtain ⟨d, rfl⟩ := h4 hn; rfl)]
  dsimp only
  rw [afterDims_closed _ (groupBase_spec e h2 h3).2.1]
  cases applyVDims (groupBase e) f.dims <;> try rfl

theorem ansiPort_bare (b : Expr) (hp : plain b = true) (ho : isOpenWire b = false) (hn : b ≠ .null) (D : Dir) (f : Follower)
    (x : IdDef × Expr) (hx : visitAnsiPort (some D) b f.bare = .ok x) :
    (do let name ← identStr f.name
        let t ← applyVDims b f.dims
        let v ← visitOptExp f.value
        pure ({ name := name, type := t, value := v, latched := false, dir := D }, b) : Except Exc (IdDef × Expr)) = .ok x := by
  simp only [visitAnsiPort, Follower.bare, AnsiPort.dir?, visitAnsiHead, bind_ok, pure_ok] at hx ⊢
  obtain ⟨n, h1, z, h2, c, h3, t, h4, b', h5, v, h6, rfl⟩ := hx
  obtain rfl := plain_clone b c hp (by
    have := Except.ok.inj h2
    rw [← this] at h3
    rw [← ansiBase_follow b hn]; exact h3)
  obtain rfl := Except.ok.inj h2
  rw [afterDims_closed _ ho] at h5
  obtain rfl := Except.ok.inj h5
  exact ⟨n, h1, t, h4, v, h6, rfl⟩

/-- C43, ANSI port lists: ports that are written without header after a port with the header `h` are converted as if each was written with
this header. Missing: headers with a type that has no width, and headers with `var` (`C43_violated_ansi`). -/
theorem C43_ansi_ports_partial (h : AnsiHead) (hg : groupHead h = true) (f : Follower) (fs : List Follower) (rest : List AnsiPort)
    (D : Option Dir) (pb : Expr) (r : List IdDef)
    (hr : visitAnsiPorts D pb (f.withHead h :: fs.map Follower.bare ++ rest) = .ok r) :
    visitAnsiPorts D pb (f.withHead h :: fs.map (Follower.withHead h) ++ rest) = .ok r := by
  cases hh : visitAnsiHead h with
  | error e =>
    exfalso
    simp only [List.cons_append, visitAnsiPorts, bind_ok, visitAnsiPort, Follower.withHead, hh] at hr
    obtain ⟨_, ⟨_, _, _, h2, _⟩, _⟩ := hr
    cases h2
  | ok x =>
    obtain ⟨h1, h2, h3, h4⟩ := head_spec h hg x hh
    obtain ⟨g1, g2, g3⟩ := groupBase_spec x.1 h2 h3
    -- the ports after the first one
    have follow : ∀ (fs : List Follower) (D : Dir) (r : List IdDef),
        (∀ g : Follower, ∀ d, (g.withHead h).dir? = some d → D = d.toDir) →
        visitAnsiPorts (some D) (groupBase x.1) (fs.map Follower.bare ++ rest) = .ok r →
        visitAnsiPorts (some D) (groupBase x.1) (fs.map (Follower.withHead h) ++ rest) = .ok r := by
      intro fs
      induction fs with
      | nil => intro D r _ hr; exact hr
      | cons g fs ih =>
        intro D r hD hr
        simp only [List.map_cons, List.cons_append, visitAnsiPorts, bind_ok, pure_ok] at hr ⊢
        obtain ⟨y, hy, l, hl, rfl⟩ := hr
        have hy' := ansiPort_bare _ g1 g2 g3 D g y hy
        have hb : y.2 = groupBase x.1 ∧ y.1.dir = D := by
          simp only [bind_ok, pure_ok] at hy'
          obtain ⟨_, _, _, _, _, _, rfl⟩ := hy'
          exact ⟨rfl, rfl⟩
        refine ⟨y, ?_, l, ?_, rfl⟩
        · rw [ansiPort_head h x hg hh]
          cases hd : (g.withHead h).dir? with
          | none => exact hy'
          | some d =>
            have := hD g d hd
            subst this
            exact hy'
        · rw [hb.1, hb.2] at hl ⊢
          exact ih D l hD hl
    simp only [List.cons_append, visitAnsiPorts, bind_ok, pure_ok] at hr ⊢
    obtain ⟨y, hy, l, hl, rfl⟩ := hr
    refine ⟨y, hy, l, ?_, rfl⟩
    rw [ansiPort_head h x hg hh] at hy
    simp only [bind_ok, pure_ok] at hy
    obtain ⟨n, _, t, _, v, _, rfl⟩ := hy
    dsimp only at hl ⊢
    refine follow fs _ l (fun g d hd => ?_) hl
    have : (f.withHead h).dir? = some d := by cases h <;> exact hd
    rw [this]

/-! ### Violations -/

/-- `logic` without dimensions. -/
def exLogic : DType := .prim (.vec (c! "logic") .none) []
/-- `[hi:lo]` with names as bounds. -/
def exRange (hi lo : Str) : ARange := .range (idE hi) (idE lo)
/-- The AST of `logic` with a width. -/
def astLogic (w : Expr) : Expr := .op none .PARAMETRIZATION [.id none (c! "logic"), w, .symb none .NULL]

theorem visit_exRange (hi lo : Str) : visitARange (exRange hi lo) = .ok (.op none .DOWNTO [.id none hi, .id none lo]) := by
  rw [exRange, visitARange, visit_idE, visit_idE]; rfl

theorem visit_exLogic : visitDType exLogic = .ok (astLogic (.symb none .NULL)) := by
  simp only [exLogic, visitDType, visitVDims]; rfl

theorem clone_astLogic_ids (hi lo : Str) : (astLogic (.op none .DOWNTO [.id none hi, .id none lo])).clone =
    .ok (astLogic (.op none .DOWNTO [.id none hi, .id none lo])) := rfl

/-- C43 is violated in port declarations: with `input logic a [hi:lo], b;` the port `b` gets the dimension of `a`, though `input logic b;`
declares a port without dimension. -/
theorem C43_violated_port_declaration (a b hi lo : Str) :
    let d : NonansiDecl := .input (some (.type (.type exLogic))) [⟨idI a, [.range (exRange hi lo)], none⟩, ⟨idI b, [], none⟩]
    (∃ da, visitNonansiDecl d = .ok [da, { name := b, type := astLogic (.op none .DOWNTO [.id none hi, .id none lo]), value := .null, dir := .IN }]) ∧
    visitNonansiDecl (only ⟨idI b, [], none⟩ d) = .ok [{ name := b, type := astLogic (.symb none .NULL), value := .null, dir := .IN }] := by
  refine ⟨⟨{ name := a, type := astLogic (.op none .DOWNTO [.id none hi, .id none lo]), value := .null, dir := .IN }, ?_⟩, ?_⟩
  · simp only [visitNonansiDecl, visitNetOrVar, visitDTypeOrImpl, visit_exLogic, visitVarIds, visitVarId, applyVDims, visitVDims, visitVDim,
      visit_exRange, afterDims, visitVarIdsRest, identStr, idI, visitOptExp, bind, Except.bind, pure, Except.pure]
    rfl
  · simp only [only, visitNonansiDecl, visitNetOrVar, visitDTypeOrImpl, visit_exLogic, visitVarIds, visitVarId, applyVDims, visitVDims,
      afterDims, visitVarIdsRest, identStr, idI, visitOptExp, bind, Except.bind, pure, Except.pure]
    rfl

/-- C43 is violated in ANSI port lists: `(input logic a [hi:lo], b)` gives `b` the dimension of `a`, and in `(output var logic a, b)` only
`a` is a variable. -/
theorem C43_violated_ansi (a b hi lo : Str) :
    (∃ da, visitPortList (.ansi [.decl (.dir .input (some (.type (.type exLogic)))) (idI a) [.range (exRange hi lo)] none,
        .decl .none (idI b) [] none]) =
      .ok [da, { name := b, type := astLogic (.op none .DOWNTO [.id none hi, .id none lo]), value := .null, dir := .IN }]) ∧
    visitPortList (.ansi [.decl (.dir .output (some (.var (some (.type exLogic))))) (idI a) [] none, .decl .none (idI b) [] none]) =
      .ok [{ name := a, type := astLogic (.symb none .NULL), value := .null, dir := .OUT, latched := true },
           { name := b, type := astLogic (.symb none .NULL), value := .null, dir := .OUT }] := by
  refine ⟨⟨{ name := a, type := astLogic (.op none .DOWNTO [.id none hi, .id none lo]), value := .null, dir := .IN }, ?_⟩, ?_⟩
  · simp only [visitPortList, visitAnsiPorts, visitAnsiPort, visitAnsiHead, visitNetOrVar, visitDTypeOrImpl, visit_exLogic, applyVDims, visitVDims,
      visitVDim, visit_exRange, afterDims, identStr, idI, visitOptExp, bind, Except.bind, pure, Except.pure]
    rfl
  · simp only [visitPortList, visitAnsiPorts, visitAnsiPort, visitAnsiHead, visitNetOrVar, visitDTypeOrImpl, visit_exLogic, applyVDims, visitVDims,
      afterDims, identStr, idI, visitOptExp, bind, Except.bind, pure, Except.pure]
    rfl

/-! ### Meaning of the type of one name -/

/-- C43, meaning: the type of a variable is its base type with its own dimensions. Missing: base types without width (`closedT`; the first
dimension then becomes the width, see C64), types and dimensions outside of `okDType` and `okVDims` (C63). -/
theorem C43_variable_meaning_partial {V : Type} (A : Alg V) (leaf : Expr → V) (hA : Agrees A leaf) (const : Bool) (life : Option Lifetime)
    (t : DType) (v : VarDecl) (hc : closedT t = true) (ht : okDType t) (hd : okVDims v.dims) (r : List Obj)
    (hr : visitDataDecl (.vars const life (some (.type t)) [v]) = .ok r) :
    ∃ d, r = [.id d] ∧ identStr v.name = .ok d.name ∧ d.const = const ∧ d.static = visitLifetime life ∧
      astEval A leaf d.type = some (evVDims A (evDType A t) v.dims) := by
  obtain ⟨e, h1, h2⟩ := dtype_eval hA t ht
  simp only [visitDataDecl, visitDTypeOrImpl, h1, visitVarDecls, bind_ok, pure_ok, Except.ok.injEq] at hr
  obtain ⟨_, rfl, ds, ⟨n, hn, c, hcl, ty, hty, i, hi, _, rfl, rfl⟩, rfl⟩ := hr
  obtain rfl := plain_clone e c (plain_dtype t e h1) hcl
  obtain ⟨ty', h3, h4⟩ := vdims_eval hA v.dims hd c _ h2
  rw [applyVDims, closed_dtype t c hc h1, h3] at hty
  obtain rfl := Except.ok.inj hty
  exact ⟨_, rfl, hn, rfl, rfl, h4⟩

/-! ### Examples -/

/-- `const static logic [W:Z] a [X:Y] = v, b;` -/
def exVars : DataDecl := .vars true none (some (.type (.prim (.vec (c! "logic") .none) [.range (exRange (c! "W") (c! "Z"))])))
  [⟨idI (c! "a"), [.range (exRange (c! "X") (c! "Y"))], .expr (idE (c! "v"))⟩, ⟨idI (c! "b"), [], .none⟩]

example : ∃ r, visitDataDecl exVars = .ok r := by
  simp only [exVars, visitDataDecl, visitDTypeOrImpl, visitDType, visitVarDecls, applyVDims, visitVDims, visitVDim, visit_exRange, identStr, idI,
    visitVarInit, visit_idE, bind, Except.bind, pure, Except.pure]
  exact ⟨_, rfl⟩

/-- `logic [W:Z]` -/
def exVec : DType := .prim (.vec (c! "logic") .none) [.range (exRange (c! "W") (c! "Z"))]

theorem visit_exVec : visitDType exVec = .ok (astLogic (.op none .DOWNTO [.id none (c! "W"), .id none (c! "Z")])) := by
  simp only [exVec, visitDType, visitVDims, visitVDim, visit_exRange, bind, Except.bind]; rfl

/-- `wand [W:Z] a [X:Y], b = v;` -/
example : ∃ r, visitNetDecl (.net (c! "wand") false (some (.impl ⟨.none, [some (exRange (c! "W") (c! "Z"))]⟩))
    [⟨idI (c! "a"), [exRange (c! "X") (c! "Y")], none⟩, ⟨idI (c! "b"), [], some (idE (c! "v"))⟩]) = .ok r := by
  simp only [visitNetDecl, visitDTypeOrImpl, visitImplType, visitPackedDim, visitPackedDims, visit_exRange, visitNetAssigns, visitNetAssign,
    visitNetAssignsRest, visitUnpackedDims, identStr, idI, visitOptExp, visit_idE, bind, Except.bind, pure, Except.pure, Bool.false_eq_true,
    if_false]
  exact ⟨_, rfl⟩

/-- `parameter logic [W:Z] a = v, b = w;` -/
example : ∃ r, visitParamDecl (.val (some (.type exVec))
    [⟨idI (c! "a"), [], some (.mtm (.one (idE (c! "v"))))⟩, ⟨idI (c! "b"), [], some (.mtm (.one (idE (c! "w"))))⟩]) = .ok r := by
  simp only [visitParamDecl, visitDTypeOrImpl, visit_exVec, visitTypedParams, visitParamAssigns, visitParamAssign, visitPExpr, visitMTM, visit_idE,
    identStr, idI, bind, Except.bind, pure, Except.pure]
  exact ⟨_, rfl⟩

/-- `input logic [W:Z] a [X:Y], b;` -/
example : let d : NonansiDecl := .input (some (.type (.type exVec))) [⟨idI (c! "a"), [.range (exRange (c! "X") (c! "Y"))], none⟩, ⟨idI (c! "b"), [], none⟩]
    closedDecl d = true ∧ ∃ r, visitNonansiDecl d = .ok r := by
  refine ⟨rfl, ?_⟩
  simp only [visitNonansiDecl, visitNetOrVar, visitDTypeOrImpl, visit_exVec, visitVarIds, visitVarId, applyVDims, visitVDims, visitVDim,
    visit_exRange, afterDims, visitVarIdsRest, identStr, idI, visitOptExp, bind, Except.bind, pure, Except.pure]
  exact ⟨_, rfl⟩

/-- `output logic [W:Z] a [X:Y], b;` in a task -/
example : let d : TfPortDecl := ⟨.dir .output, false, some (.type exVec), [⟨idI (c! "a"), [.range (exRange (c! "X") (c! "Y"))], none⟩, ⟨idI (c! "b"), [], none⟩]⟩
    closedI d.type = true ∧ ∃ r, visitTfPortDecl d = .ok r := by
  refine ⟨rfl, ?_⟩
  simp only [visitTfPortDecl, visitDTypeOrImpl, visit_exVec, visitVarIds, visitVarId, applyVDims, visitVDims, visitVDim,
    visit_exRange, afterDims, visitVarIdsRest, identStr, idI, visitOptExp, bind, Except.bind, pure, Except.pure]
  exact ⟨_, rfl⟩

/-- `(output logic [W:Z] a [X:Y], b, c [X:Y], input d)` -/
example : let h : AnsiHead := .dir .output (some (.type (.type exVec)))
    let f : Follower := ⟨idI (c! "a"), [.range (exRange (c! "X") (c! "Y"))], none⟩
    let fs : List Follower := [⟨idI (c! "b"), [], none⟩, ⟨idI (c! "c"), [.range (exRange (c! "X") (c! "Y"))], none⟩]
    groupHead h = true ∧
    ∃ r, visitAnsiPorts none .null (f.withHead h :: fs.map Follower.bare ++ [.decl (.dir .input none) (idI (c! "d")) [] none]) = .ok r := by
  refine ⟨rfl, ?_⟩
  simp only [Follower.withHead, Follower.bare, List.map_cons, List.map_nil, List.cons_append, List.nil_append, visitAnsiPorts, visitAnsiPort,
    visitAnsiHead, visitNetOrVar, visitDTypeOrImpl, visit_exVec, applyVDims, visitVDims, visitVDim, visit_exRange, afterDims, identStr, idI,
    visitOptExp, bind, Except.bind, pure, Except.pure]
  exact ⟨_, rfl⟩

theorem ok_exRange (hi lo : Str) (h1 : isKw hi = false) (h2 : isKw lo = false) : okARange (exRange hi lo) := by
  have : ∀ s, isKw s = false → okExp (idE s) := by
    intro s h
    simp only [idE, idP, idI, okExp, okPrim, okPath, okPathItems, okPathItem, okPVA, okIdent, identStr]
    simpa using h
  exact ⟨this _ h1, this _ h2⟩

/-- The hypotheses of `C43_variable_meaning_partial` for `logic [W:Z] a [X:Y];`. -/
example : closedT exVec = true ∧ okDType exVec ∧ okVDims [.range (exRange (c! "X") (c! "Y"))] := by
  refine ⟨rfl, ?_, ?_⟩
  · simp only [exVec, okDType, okVDims]
    exact ⟨by decide +kernel, ok_exRange _ _ (by decide +kernel) (by decide +kernel), trivial⟩
  · simp only [okVDims, okVDim]
    exact ⟨ok_exRange _ _ (by decide +kernel) (by decide +kernel), trivial⟩

end Verif.Sv
