import Verif.SvItemRead
import Verif.SvModuleLemmas
/-!
# The parse of SystemVerilog parameters
-/
namespace Verif.Sv
open P Verif.Spec.SvLrm Verif.Spec.Sv

variable {V S : Type} {A : Alg V} {Bs : SAlg V S} {B : Rules} {G : ItemRules}

variable (A Bs) in
/-- A tree of a parameter means the same as the text. -/
structure MPa (t : ParamAssign) (a : Ident × SExp) : Prop where
  ev : ∀ c v, evGeneric A Bs c v t = Bs.decl ⟨c, false, false⟩ (A.ident a.1) v (some (a.2.eval A))
  evLocal : ∀ v, evParam A Bs v t = Bs.decl ⟨true, false, false⟩ (A.ident a.1) v (some (a.2.eval A))
  name : t.name = a.1
  ok : okIdent a.1 ∧ a.2.Ok → okParam t

theorem par_first {M : Nat} (a : Ident × SExp) (w R : List STok) (h : parToks a w) (hM : w.length < M) (hR : Sep R) (hc : tok .COLON R = []) :
    ∃ t, MPa A Bs t a ∧ First None' (paramAssignment (env B M)) (w ++ R) t R := by
  obtain ⟨_, _, rfl, ⟨x, rfl, hx⟩, _, u, rfl, ⟨y, rfl, hy⟩, hu⟩ := h
  simp only [List.length_append, List.length_cons, List.length_nil] at hM
  obtain ⟨t, ht, ft⟩ := exp_first (A := A) (B := B) hu (M := M) (by omega) hR
  simp only [List.append_assoc, List.cons_append, List.nil_append]
  refine ⟨⟨a.1, [], some (.mtm (.one t))⟩, ⟨fun c v => ?_, fun v => ?_, rfl, fun h => ?_⟩, ?_⟩
  · simp only [evGeneric, evDims, Option.map_some, evPExpr, evMTM, ht.ev]
  · simp only [evParam, evDims, Option.map_some, evPExpr, evMTM, ht.ev]
  · refine ⟨h.1, rfl, ?_⟩
    simp only [okPValue, okPExpr, okMTM]
    exact ht.ok h.2
  · exact First.bindH (identifier_first hx _) (First.bindH (a := []) (First.of_eq (many_none (bind_nil (tok_neg (by rw [hy]; decide) _))))
      (First.bindH (a := some (.mtm (.one t))) (First.some (First.bindH (First.tok hy _)
        (First.orL (First.bindH (a := .one t) (First.bindH ft (First.bindH (a := none) (First.noneE (bind_nil hc)) (First.ret _ _))) (First.ret _ _))))) (First.ret _ _)))

/-- The type of a parameter. -/
theorem parTy_first {M : Nat} {o : SParTy} {w : List STok} (h : parTyToks o w) (hM : w.length + 1 < M) {i : Ident} {x y : STok} {R : List STok} (hx : Ident.Tok i x)
    (hy : y.ty = .ASSIGN) :
    ∃ t, (evType A Bs t = parTyEval A Bs o ∧ ((∀ k r, o = .vec k r → rangeOk r) → okTypeDims t true)) ∧
      tok .KW_TYPE (w ++ x :: y :: R) = [] ∧ First Bd (opt (dataTypeOrImplicit (env B M))) (w ++ x :: y :: R) t (x :: y :: R) := by
  have hsq : tok .LSQUARE_BR (x :: y :: R) = [] := tok_neg (ident_notPath hx rfl) _
  cases o with
  | plain =>
    rw [parTyToks, Spec.SvLrm.Empty] at h; subst h
    refine ⟨none, ⟨rfl, fun _ => rfl⟩, tok_neg (ident_notPath hx rfl) _, noType_first hx (.stop ?_) ?_ M⟩ <;> rintro _ _ ⟨⟩ <;> rw [hy] <;> decide
  | num k =>
    rw [parTyToks] at h
    obtain ⟨z, rfl, hz, hz2⟩ := h
    obtain ⟨M, rfl⟩ : ∃ m, M = m + 1 := ⟨M - 1, by omega⟩
    refine ⟨some (.type (numType k)), ⟨numType_ev k, fun _ => ⟨numType_ok k, .inr rfl⟩⟩, tok_neg (by rw [hz]; cases k <;> decide) _, First.some (First.orL (First.map (f := DTypeOrImpl.type)
      (First.weak (numType_first hz hz2 (ident_id hx)))))⟩
  | vec k r =>
    rw [parTyToks] at h
    obtain ⟨_, p, rfl, ⟨z, rfl, hz, hz2⟩, hp⟩ := h
    simp only [List.length_append, List.length_cons, List.length_nil] at hM
    obtain ⟨M, rfl⟩ : ∃ m, M = m + 1 := ⟨M - 1, by omega⟩
    have ne : ∀ (s : List STok), tok .KW_TYPE (z :: s) = [] := fun s => tok_neg (by rw [hz]; cases k <;> decide) _
    cases r with
    | none =>
      rw [optRange, Spec.SvLrm.Empty] at hp; subst hp
      refine ⟨some (.type (.prim (.vec k.text .none) [])), ⟨?_, fun _ => ?_⟩, ne _, First.some (First.orL (First.map (f := DTypeOrImpl.type)
        (First.weak (vecType_first hz hz2 (.inl (ident_id hx)) (First.of_eq (many_none (bind_nil hsq)))))))⟩
      · simp only [evType, evDType, evSign, parTyEval, vecEval]
      · simp only [okTypeDims, okDType]; exact ⟨vec_kw k, .inr trivial⟩
    | some r =>
      rw [optRange] at hp
      obtain ⟨t, hr, fr⟩ := vdim_first (A := A) (B := B) hp (M := M) (by omega) (x :: y :: R)
      obtain ⟨_, w', rfl, ⟨o, rfl, ho⟩, -⟩ := hp
      simp only [List.cons_append, List.nil_append, List.append_assoc] at fr ⊢
      refine ⟨some (.type (.prim (.vec k.text .none) [.range t])), ⟨?_, fun h => ?_⟩, ne _, First.some (First.orL (First.map (f := DTypeOrImpl.type)
        (First.weak (vecType_first hz hz2 (.inr ho) ?_))))⟩
      · simp only [evType, evDType, evVDims, hr.ev, evSign, parTyEval, vecEval]
      · simp only [okTypeDims, okDType, okVDims]; exact ⟨⟨vec_kw k, hr.ok (h k (some r) rfl), trivial⟩, .inr trivial⟩
      · exact First.many (First.manyCons fr (First.of_eq (manyN_stop (bind_nil hsq) _)))

/-- What follows the keyword, up to the semicolon. -/
theorem pdecl_first {M : Nat} {o : SParTy} {a : Ident × SExp} {l : List (Ident × SExp)} {w : List STok}
    (h : Cat (parTyToks o) (Cat (parToks a) (Cat (restToks (One .COMMA) parToks l) (One .SEMI))) w)
    (hM : w.length + 1 < M) (R : List STok) : ∃ t ts c, (evType A Bs t = parTyEval A Bs o ∧ ((∀ k r, o = .vec k r → rangeOk r) → okTypeDims t true)) ∧ All2 (MPa A Bs) ts (a :: l) ∧
    c.ty = .SEMI ∧ First None' (paramDeclaration (env B M)) (w ++ R) (.val t ts) (c :: R) := by
  obtain ⟨q, _, rfl, hq, u, _, rfl, hu, v, _, rfl, hv, ⟨c, rfl, hc⟩⟩ := h
  simp only [List.length_append, List.length_cons, List.length_nil] at hM
  obtain ⟨ts, ht, ft⟩ := commas_first (D := None') (p := paramAssignment (env B M)) (T := parToks) (M := MPa A Bs) (N := M) (Rst := CommaSemi)
    (fun a u R h hN hR => par_first a u R h hN hR.sep (by obtain ⟨y, s, rfl, h | h⟩ := hR <;> exact tok_neg (by rw [h]; decide) _)) (fun z R hz => ⟨z, R, rfl, .inl hz⟩) (fun r h => h.elim)
    a l u v (c :: R) hu hv (by simp only [List.length_append]; omega) ⟨c, R, rfl, .inr hc⟩ (tok_neg (by rw [hc]; decide) _)
  obtain ⟨_, _, rfl, ⟨x, rfl, hx⟩, _, u, rfl, ⟨y, rfl, hy⟩, hu⟩ := hu
  obtain ⟨t, ho, hk, fo⟩ := parTy_first (A := A) (Bs := Bs) (B := B) hq (M := M) (by omega) (R := u ++ (v ++ c :: R)) hx hy
  simp only [List.append_assoc, List.cons_append, List.nil_append] at ft ⊢
  refine ⟨t, ts, c, ho, ht, hc, First.orN (bind_nil hk) (First.head (D' := Bd) fo (First.map (f := ParamDecl.val t) ft) ?_)⟩
  intro c s hs
  have : P.sepBy .COMMA (paramAssignment (env B M)) s = [] := bind_nil (bind_nil hs.id)
  exact bind_nil this

/-- A parameter in the body of a module. -/
theorem bodyPar_first {M : Nat} {o : SParTy} {a : Ident × SExp} {l : List (Ident × SExp)} {w : List STok}
    (h : Cat (One .KW_PARAMETER) (Cat (parTyToks o) (Cat (parToks a) (Cat (restToks (One .COMMA) parToks l) (One .SEMI)))) w)
    (hM : w.length < M) (R : List STok) : ∃ t ts, (evType A Bs t = parTyEval A Bs o ∧ ((∀ k r, o = .vec k r → rangeOk r) → okTypeDims t true)) ∧ All2 (MPa A Bs) ts (a :: l) ∧
    First None' (semiItem G (env B M)) (w ++ R) (.param (.val t ts)) R := by
  obtain ⟨_, w, rfl, ⟨z, rfl, hz⟩, h⟩ := h
  simp only [List.length_append, List.length_cons, List.length_nil] at hM
  obtain ⟨t, ts, c, ho, ht, hc, hd⟩ := pdecl_first (A := A) (Bs := Bs) (B := B) h (M := M) (by omega) R
  simp only [List.cons_append, List.nil_append]
  exact ⟨t, ts, ho, ht, First.bindH (a := some (.param (.val t ts))) (r1 := c :: R) (First.some (First.orN (bind_nil (G.default_no.2 _ _ (by rw [hz]; decide))) (First.orN (bind_nil (tok_neg (by rw [hz]; decide) _))
    (First.bindH (First.tok hz _) (First.map (f := GenItem.param) hd))))) (First.bindH (First.tok hc _) (First.ret _ _))⟩

theorem local_first {M : Nat} {o : SParTy} {a : Ident × SExp} {l : List (Ident × SExp)} {w : List STok} (h : (SItem.local_ o a l).Toks w)
    (hM : w.length < M) (R : List STok) : ∃ t ts, (evType A Bs t = parTyEval A Bs o ∧ ((∀ k r, o = .vec k r → rangeOk r) → okTypeDims t true)) ∧ All2 (MPa A Bs) ts (a :: l) ∧
    First None' (semiItem G (env B M)) (w ++ R) (.localparam (.val t ts)) R := by
  rw [SItem.Toks] at h
  obtain ⟨_, w, rfl, ⟨z, rfl, hz⟩, h⟩ := h
  simp only [List.length_append, List.length_cons, List.length_nil] at hM
  obtain ⟨t, ts, c, ho, ht, hc, hd⟩ := pdecl_first (A := A) (Bs := Bs) (B := B) h (M := M) (by omega) R
  simp only [List.cons_append, List.nil_append]
  exact ⟨t, ts, ho, ht, First.bindH (a := some (.localparam (.val t ts))) (r1 := c :: R) (First.some (First.orN (bind_nil (G.default_no.2 _ _ (by rw [hz]; decide))) (First.orL
    (First.bindH (First.tok hz _) (First.map (f := GenItem.localparam) hd))))) (First.bindH (First.tok hc _) (First.ret _ _))⟩

end Verif.Sv
