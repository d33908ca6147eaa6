import Verif.SvPlain
import Verif.SvExprLemmas
import Verif.Sv.Module
import Verif.Spec.SvDecl
/-!
# Helper lemmas about SystemVerilog declarations
-/
namespace Verif.Sv
open Verif Verif.Spec.Sv

/-! ## Lists of declared names -/

theorem visitVarDecls_append (base : Expr) (xs ys : List VarDecl) :
    visitVarDecls base (xs ++ ys) = (do
      let a ← visitVarDecls base xs
      let b ← visitVarDecls base ys
      pure (a ++ b)) := by
  induction xs with
  | nil =>
    simp only [List.nil_append, visitVarDecls, bind, Except.bind]
    cases visitVarDecls base ys <;> rfl
  | cons v l ih =>
    simp only [List.cons_append, visitVarDecls, ih, bind, Except.bind, pure, Except.pure]
    cases identStr v.name <;> try rfl
    cases base.clone <;> try rfl
    dsimp only
    cases applyVDims _ v.dims <;> try rfl
    dsimp only
    cases visitVarInit v.init <;> try rfl
    dsimp only
    cases visitVarDecls base l <;> try rfl
    dsimp only
    cases visitVarDecls base ys <;> rfl

theorem visitVarIdsRest_eq (lat : Bool) (d : Dir) (base : Expr) (h : base.clone = .ok base) (l : List VarId) :
    visitVarIdsRest lat d base l = l.mapM (visitVarId lat d base) := by
  induction l with
  | nil => rfl
  | cons v l ih =>
    rw [visitVarIdsRest, List.mapM_cons, h, ih]
    rfl

theorem visitNetAssignsRest_eq (base : Expr) (h : base.clone = .ok base) (l : List NetAssign) :
    visitNetAssignsRest base l = l.mapM (visitNetAssign base) := by
  induction l with
  | nil => rfl
  | cons v l ih =>
    rw [visitNetAssignsRest, List.mapM_cons, h, ih]
    rfl

/-- A copy that exists is the same expression. -/
theorem plain_clone_cases (e : Expr) (hp : plain e = true) : e.clone = .ok e ∨ ∃ x, e.clone = .error x := by
  cases h : e.clone with
  | error x => exact .inr ⟨x, rfl⟩
  | ok e' => rw [plain_clone e e' hp h]; exact .inl rfl

/-! ## What has a meaning can be copied -/

mutual
theorem clone_of_eval {V : Type} {A : Alg V} {leaf : Expr → V} : ∀ (e : Expr) (v : V), plain e = true → astEval A leaf e = some v →
    e.clone = .ok e
  | .null, _, _, h => by simp [astEval] at h
  | .id .., _, _, _ | .int .., _, _, _ | .float .., _, _, _ | .str .., _, _, _ => rfl
  | .symb p k, _, hp, _ => by
    simp only [plain, Option.isNone_iff_eq_none] at hp
    simp only [Expr.clone, hp]
  | .notImpl p, _, hp, _ => by
    simp only [plain, Option.isNone_iff_eq_none] at hp
    simp only [Expr.clone, hp]
  | .arr p l, v, hp, h => by
    simp only [plain, Bool.and_eq_true, Option.isNone_iff_eq_none] at hp
    simp only [astEval] at h
    cases hl : astEvals A leaf l with
    | none => simp [hl] at h
    | some vs => simp only [Expr.clone, clones_of_eval l vs hp.2 hl, hp.1, bind, Except.bind, pure, Except.pure]
  | .op p o l, v, hp, h => by
    simp only [plain, Bool.and_eq_true, Option.isNone_iff_eq_none] at hp
    simp only [astEval] at h
    cases hl : astEvals A leaf l with
    | none => simp [hl] at h
    | some vs => simp only [Expr.clone, clones_of_eval l vs hp.2 hl, hp.1, bind, Except.bind, pure, Except.pure]
  | .enumDef .., _, hp, _ | .physDef .., _, hp, _ | .classDef .., _, hp, _ => by simp [plain] at hp
theorem clones_of_eval {V : Type} {A : Alg V} {leaf : Expr → V} : ∀ (l : List Expr) (vs : List V), plains l = true →
    astEvals A leaf l = some vs → cloneList l = .ok l
  | [], _, _, _ => rfl
  | e :: l, vs, hp, h => by
    simp only [plains, Bool.and_eq_true] at hp
    simp only [astEvals] at h
    cases he : astEval A leaf e with
    | none => simp [he] at h
    | some v =>
      cases hl : astEvals A leaf l with
      | none => simp [he, hl] at h
      | some vs' =>
        simp only [cloneList, clone_of_eval e v hp.1 he, clones_of_eval l vs' hp.2 hl, bind, Except.bind, pure, Except.pure]
end

/-! ## Types that have their width -/

theorem isOpenWire_mkBin (a b : Expr) (o : OpType) (h : o ≠ .PARAMETRIZATION) : isOpenWire (.mkBin none a o b) = false := by
  unfold Expr.mkBin isOpenWire
  split
  · rename_i heq; simp only [Expr.op.injEq] at heq; exact absurd heq.2.1 h
  · rfl

theorem isOpenWire_mkDim (t d : Expr) : isOpenWire (mkDim t d) = false := by
  unfold mkDim
  split
  · rfl
  · exact isOpenWire_mkBin _ _ _ (by decide)

theorem isOpenWire_append (a b : Expr) (o : OpType) (ho : o ≠ .PARAMETRIZATION) (h : isOpenWire b = false) :
    isOpenWire (appendExpr a o b) = false := by
  unfold appendExpr
  split
  · exact h
  · exact isOpenWire_mkBin _ _ _ ho

theorem isOpenWire_vdims (l : List VDim) : ∀ t e : Expr, isOpenWire t = false → visitVDims false t l = .ok e → isOpenWire e = false := by
  induction l with
  | nil => intro t e ht h; simp only [visitVDims, Except.ok.injEq] at h; rw [← h]; exact ht
  | cons d l ih =>
    intro t e ht h
    simp only [visitVDims, bind_ok] at h
    obtain ⟨a, -, h⟩ := h
    simp only [Bool.false_eq_true, if_false] at h
    exact ih _ _ (isOpenWire_mkDim _ _) h

theorem isOpenWire_ident (i : Ident) (e : Expr) (h : visitIdent i = .ok e) : isOpenWire e = false := by
  simp only [visitIdent, bind_ok, pure_ok] at h
  obtain ⟨s, -, rfl⟩ := h
  rfl

theorem isOpenWire_pathItems (l : List PathItem) : ∀ t e : Expr, noParams l = true → isOpenWire t = false →
    visitPathItems t l = .ok e → isOpenWire e = false := by
  induction l with
  | nil => intro t e _ ht h; simp only [visitPathItems, Except.ok.injEq] at h; rw [← h]; exact ht
  | cons i l ih =>
    intro t e hn ht h
    simp only [visitPathItems, bind_ok] at h
    obtain ⟨a, ha, h⟩ := h
    obtain ⟨i, p⟩ := i
    cases p with
    | none =>
      simp only [visitPathItem, visitPVA, bind_ok, Except.ok.injEq] at ha
      obtain ⟨b, hb, rfl⟩ := ha
      exact ih _ _ (by simpa only [noParams] using hn) (isOpenWire_append _ _ _ (by decide) (isOpenWire_ident _ _ hb)) h
    | ordered _ => simp [noParams] at hn
    | named _ => simp [noParams] at hn

theorem isOpenWire_wire (nt a b : Expr) (s : Sign) (o : OpType) : isOpenWire (mkWireT nt (.mkBin none a o b) s) = false := by
  unfold mkWireT Expr.mkParam isOpenWire Expr.mkBin
  rfl

theorem closed_dtype (t : DType) (e : Expr) (hc : closedT t = true) (h : visitDType t = .ok e) : isOpenWire e = false := by
  match t with
  | .string | .chandle | .event =>
    simp only [visitDType, Except.ok.injEq] at h; subst h; rfl
  | .virtual i .none none =>
    simp only [visitDType, visitPVA, bind_ok, pure_ok, Except.ok.injEq] at h
    obtain ⟨a, ha, b, rfl, rfl⟩ := h
    exact isOpenWire_ident _ _ ha
  | .virtual i .none (some m) =>
    simp only [visitDType, visitPVA, bind_ok, pure_ok, Except.ok.injEq] at h
    obtain ⟨a, ha, b, rfl, c, hc, rfl⟩ := h
    exact isOpenWire_mkBin _ _ _ (by decide)
  | .virtual i (.ordered _) _ | .virtual i (.named _) _ => simp [closedT] at hc
  | .prim (.vec kw s) [] | .prim (.vec kw s) (.empty :: _) | .prim (.vec kw s) (.star :: _) | .prim (.vec kw s) (.type _ :: _)
  | .prim (.vec kw s) (.range (.one _) :: _) | .prim (.vec kw s) (.range (.plus _ _) :: _)
  | .prim (.vec kw s) (.range (.minus _ _) :: _) => simp [closedT] at hc
  | .prim (.vec kw s) (.range (.range a b) :: l) =>
    simp only [visitDType, visitDPrim, visitVDims, visitVDim, visitARange, bind_ok, pure_ok] at h
    obtain ⟨d, ⟨a', -, b', -, rfl⟩, h⟩ := h
    have ho : isOpenWire (mkWireT (.id none kw) (.symb none .NULL) s) = true := rfl
    simp only [ho, if_true] at h
    refine isOpenWire_vdims l _ _ ?_ h
    rfl
  | .prim (.atom kw .none) l | .prim (.nonInt kw) l =>
    simp only [visitDType, visitDPrim] at h
    exact isOpenWire_vdims l _ _ rfl h
  | .prim (.atom kw .signed) l | .prim (.atom kw .unsigned) l =>
    simp only [visitDType, visitDPrim] at h
    exact isOpenWire_vdims l _ _ rfl h
  | .enum l | .struct l =>
    simp only [visitDType] at h
    exact isOpenWire_vdims l _ _ rfl h
  | .path (.mk loc hd items) l =>
    simp only [visitDType, visitPath, bind_ok] at h
    obtain ⟨p, ⟨p', hp', hp⟩, h⟩ := h
    have hopen : isOpenWire p' = false := by
      refine isOpenWire_pathItems items _ _ (by simpa only [closedT] using hc) ?_ hp'
      cases loc <;> cases hd <;> rfl
    have : isOpenWire p = false := by
      split at hp
      · cases hp
      · rw [pure_ok] at hp; rw [← hp]; exact hopen
    rw [this] at h
    exact isOpenWire_vdims l _ _ this h
  | .typeRef t =>
    cases t with
    | expr x =>
      simp only [visitDType, visitTRef, bind_ok, pure_ok] at h
      obtain ⟨a, -, rfl⟩ := h; rfl
    | type x =>
      simp only [visitDType, visitTRef, bind_ok, pure_ok] at h
      obtain ⟨a, -, rfl⟩ := h; rfl

theorem closed_packedDims (l : List (Option ARange)) : ∀ t e : Expr, isOpenWire t = false → visitPackedDims t l = .ok e →
    isOpenWire e = false := by
  induction l with
  | nil => intro t e ht h; simp only [visitPackedDims, Except.ok.injEq] at h; rw [← h]; exact ht
  | cons d l ih =>
    intro t e ht h
    simp only [visitPackedDims, bind_ok] at h
    obtain ⟨a, -, h⟩ := h
    exact ih _ _ (isOpenWire_mkDim _ _) h

theorem closed_dtypeOrImpl (nt : Expr) (t : Option DTypeOrImpl) (e : Expr) (hc : closedI t = true)
    (h : visitDTypeOrImpl nt t = .ok e) : isOpenWire e = false := by
  match t with
  | none => simp only [visitDTypeOrImpl, Except.ok.injEq] at h; subst h; rfl
  | some (.type t) => exact closed_dtype t e hc (by simpa only [visitDTypeOrImpl] using h)
  | some (.impl ⟨_, []⟩) | some (.impl ⟨_, none :: _⟩) | some (.impl ⟨_, some (.one _) :: _⟩)
  | some (.impl ⟨_, some (.plus _ _) :: _⟩) | some (.impl ⟨_, some (.minus _ _) :: _⟩) => simp [closedI] at hc
  | some (.impl ⟨s, some (.range a b) :: l⟩) =>
    simp only [visitDTypeOrImpl, visitImplType, visitPackedDim, visitARange, bind_ok, pure_ok] at h
    obtain ⟨d, ⟨a', -, b', -, rfl⟩, h⟩ := h
    exact closed_packedDims l _ _ (isOpenWire_wire _ _ _ _ _) h

theorem closed_implType (t : Option ImplType) (e : Expr) (hc : closedNV (some (.interconnect t)) = true)
    (h : visitImplType .null t = .ok e) : isOpenWire e = false := by
  match t with
  | none => simp only [visitImplType, Except.ok.injEq] at h; subst h; rfl
  | some t => exact closed_dtypeOrImpl .null (some (.impl t)) e hc (by simpa only [visitDTypeOrImpl] using h)

theorem closed_netOrVar (t : Option NetOrVar) (r : Expr × Bool) (hc : closedNV t = true) (h : visitNetOrVar t = .ok r) :
    isOpenWire r.1 = false := by
  match t with
  | none => simp only [visitNetOrVar, Except.ok.injEq] at h; subst h; rfl
  | some (.interconnect t) =>
    simp only [visitNetOrVar, bind_ok, pure_ok] at h
    obtain ⟨a, ha, rfl⟩ := h
    exact closed_implType t _ hc ha
  | some (.var t) | some (.net _ t) | some (.type t) =>
    simp only [visitNetOrVar, bind_ok, pure_ok] at h
    obtain ⟨a, ha, rfl⟩ := h
    exact closed_dtypeOrImpl _ _ _ hc ha

theorem closed_netPort (t : Option NetPort) (e : Expr) (hc : closedNP t = true) (h : visitNetPort t = .ok e) : isOpenWire e = false := by
  match t with
  | none => simp only [visitNetPort, Except.ok.injEq] at h; subst h; rfl
  | some (.interconnect none) => exact closed_implType none e rfl (by simpa only [visitNetPort] using h)
  | some (.interconnect (some t)) => exact closed_implType (some t) e hc (by simpa only [visitNetPort] using h)
  | some (.net kw t) => exact closed_dtypeOrImpl (.id none kw) t e hc (by simpa only [visitNetPort] using h)
  | some (.type t) => exact closed_dtypeOrImpl .null (some t) e hc (by simpa only [visitNetPort] using h)

theorem closed_varDType (t : Option VarDType) (e : Expr) (hc : closedVT t = true) (h : visitVarDType t = .ok e) :
    isOpenWire e = false := by
  match t with
  | none => simp only [visitVarDType, Except.ok.injEq] at h; subst h; rfl
  | some (.var t) => exact closed_dtypeOrImpl .null t e hc (by simpa only [visitVarDType] using h)
  | some (.type t) => exact closed_dtype t e hc (by simpa only [visitVarDType] using h)

/-! ## Types are never null -/


theorem ne_null_vdims (l : List VDim) : ∀ (b : Bool) (t e : Expr), t ≠ .null → visitVDims b t l = .ok e → e ≠ .null := by
  induction l with
  | nil => intro b t e ht h; simp only [visitVDims, Except.ok.injEq] at h; rw [← h]; exact ht
  | cons d l ih =>
    intro b t e ht h
    simp only [visitVDims, bind_ok] at h
    obtain ⟨a, -, h⟩ := h
    split at h
    · refine ih _ _ _ ?_ h
      unfold fillWidth
      split
      · simp
      · exact ht
    · refine ih _ _ _ ?_ h
      unfold mkDim
      split <;> simp [Expr.mkUn, Expr.mkBin]

theorem ne_null_dtype (t : DType) (e : Expr) (h : visitDType t = .ok e) : e ≠ .null := by
  match t with
  | .string | .chandle | .event =>
    simp only [visitDType, Except.ok.injEq] at h; subst h; simp
  | .virtual i p m =>
    simp only [visitDType, bind_ok] at h
    obtain ⟨a, ha, b, hb, h⟩ := h
    have hb' : b ≠ .null := by
      simp only [visitIdent, bind_ok, pure_ok] at ha
      obtain ⟨s, -, rfl⟩ := ha
      cases p with
      | none => simp only [visitPVA, Except.ok.injEq] at hb; rw [← hb]; simp
      | ordered l => simp only [visitPVA, bind_ok, pure_ok] at hb; obtain ⟨_, -, rfl⟩ := hb; simp [Expr.mkParam]
      | named l => simp only [visitPVA, bind_ok, pure_ok] at hb; obtain ⟨_, -, rfl⟩ := hb; simp [Expr.mkParam]
    cases m with
    | none => rw [pure_ok] at h; rw [← h]; exact hb'
    | some m => simp only [bind_ok, pure_ok] at h; obtain ⟨_, -, rfl⟩ := h; simp [Expr.mkBin]
  | .prim p l =>
    simp only [visitDType] at h
    refine ne_null_vdims l _ _ _ ?_ h
    unfold visitDPrim
    split <;> simp [mkWireT, Expr.mkParam]
  | .enum l | .struct l =>
    simp only [visitDType] at h
    exact ne_null_vdims l _ _ _ (by simp) h
  | .path (.mk loc hd items) l =>
    simp only [visitDType, visitPath, bind_ok] at h
    obtain ⟨p, ⟨p', -, hp⟩, h⟩ := h
    refine ne_null_vdims l _ _ _ ?_ h
    cases p' <;> cases hp <;> simp
  | .typeRef t =>
    cases t <;>
    · simp only [visitDType, visitTRef, bind_ok, pure_ok] at h
      obtain ⟨a, -, rfl⟩ := h; simp [Expr.mkUn]

theorem ne_null_packedDims (l : List (Option ARange)) : ∀ t e : Expr, t ≠ .null → visitPackedDims t l = .ok e → e ≠ .null := by
  induction l with
  | nil => intro t e ht h; simp only [visitPackedDims, Except.ok.injEq] at h; rw [← h]; exact ht
  | cons d l ih =>
    intro t e ht h
    simp only [visitPackedDims, bind_ok] at h
    obtain ⟨a, -, h⟩ := h
    refine ih _ _ ?_ h
    unfold mkDim
    split <;> simp [Expr.mkUn, Expr.mkBin]

theorem ne_null_implType (nt : Expr) (t : Option ImplType) (e : Expr) (h : visitImplType nt t = .ok e) : e ≠ .null := by
  match t with
  | none =>
    simp only [visitImplType, Except.ok.injEq] at h
    subst h
    cases nt <;> simp
  | some ⟨s, []⟩ => simp only [visitImplType, Except.ok.injEq] at h; subst h; simp [mkWireT, Expr.mkParam]
  | some ⟨s, d :: l⟩ =>
    simp only [visitImplType, bind_ok] at h
    obtain ⟨a, -, h⟩ := h
    exact ne_null_packedDims l _ _ (by simp [mkWireT, Expr.mkParam]) h

theorem ne_null_dtypeOrImpl (nt : Expr) (t : Option DTypeOrImpl) (e : Expr) (h : visitDTypeOrImpl nt t = .ok e) : e ≠ .null := by
  match t with
  | none => simp only [visitDTypeOrImpl, Except.ok.injEq] at h; subst h; simp
  | some (.type t) => exact ne_null_dtype t e (by simpa only [visitDTypeOrImpl] using h)
  | some (.impl t) => exact ne_null_implType nt (some t) e (by simpa only [visitDTypeOrImpl] using h)

theorem ne_null_netOrVar (t : Option NetOrVar) (r : Expr × Bool) (h : visitNetOrVar t = .ok r) : r.1 ≠ .null := by
  match t with
  | none => simp only [visitNetOrVar, Except.ok.injEq] at h; subst h; simp
  | some (.interconnect t) =>
    simp only [visitNetOrVar, bind_ok, pure_ok] at h
    obtain ⟨a, ha, rfl⟩ := h
    exact ne_null_implType _ _ _ ha
  | some (.var t) | some (.net _ t) | some (.type t) =>
    simp only [visitNetOrVar, bind_ok, pure_ok] at h
    obtain ⟨a, ha, rfl⟩ := h
    exact ne_null_dtypeOrImpl _ _ _ ha

theorem latched_netOrVar (t : Option NetOrVar) (r : Expr × Bool) (hv : ∀ x, t ≠ some (.var x)) (h : visitNetOrVar t = .ok r) :
    r.2 = false := by
  match t with
  | none => simp only [visitNetOrVar, Except.ok.injEq] at h; subst h; rfl
  | some (.var t) => exact absurd rfl (hv t)
  | some (.interconnect t) | some (.net _ t) | some (.type t) =>
    simp only [visitNetOrVar, bind_ok, pure_ok] at h
    obtain ⟨a, ha, rfl⟩ := h
    rfl


end Verif.Sv
