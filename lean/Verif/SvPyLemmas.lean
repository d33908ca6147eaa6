import Verif.VhdlPyLemmas
import Verif.Spec.SvPy
/-!
# The objects of a SystemVerilog file are convertible
-/
namespace Verif.Sv
open Spec Spec.Sv
open Vhdl (post_mono wfN mapInfo_wf wfBs_append)

/-! ## Expressions -/

theorem mkParam_wf {p : Option CodePos} {f : Expr} {l : List Expr} (hf : wfE f) (hl : wfEs l) : wfE (.mkParam p f l) := by
  simp only [Expr.mkParam, wfE, wfEs]; exact ⟨hf, hl⟩

theorem append_wf {s e : Expr} {o : OpType} (hs : wfOpt s) (he : wfE e) : wfE (appendExpr s o e) := by
  rcases hs with rfl | hs
  · exact he
  · cases s <;> first | exact mkBin_wf hs he | simp only [wfE] at hs

theorem reduce_wf {o : OpType} : ∀ (l : List Expr) {r : Expr}, wfE r → wfEs l → wfE (reduceE o r l)
  | [], _, hr, _ => hr
  | _ :: l, _, hr, h => by simp only [reduceE]; exact reduce_wf l (append_wf (.inr hr) h.1) h.2

theorem concat_wf {o : OpType} {l : List Expr} (hl : l ≠ []) (h : wfEs l) : wfE (reduceE o .null l) := by
  cases l with
  | nil => exact absurd rfl hl
  | cons e l => simp only [reduceE]; exact reduce_wf l (append_wf (.inl rfl) h.1) h.2

theorem concatOpt_wf {o : OpType} {l : List Expr} (h : wfEs l) : wfOpt (reduceE o .null l) := by
  cases l with
  | nil => exact .inl rfl
  | cons e l => exact .inr (concat_wf (by simp) h)

theorem ident_wf (i : Ident) : Post wfE (visitIdent i) := by
  unfold visitIdent
  exact post_bind post_any fun _ _ => post_pure trivial

theorem lit_wf (l : Lit) : Post wfE (visitLit l) := by
  cases l <;> simp only [visitLit] <;> first | exact post_ok trivial | exact post_bind post_any fun _ _ => post_pure trivial

theorem signE_wf (s : Sign) : wfE (signE s) := by cases s <;> trivial

/-- `match e with | .null => d | e => e` -/
local macro "null_or " h:ident : tactic =>
  `(tactic| (rcases $h:ident with h0 | h0 <;> [(subst h0; exact trivial); (split <;> first | exact trivial | exact h0)]))

theorem wireT_wf {n r : Expr} {s : Sign} (hn : wfOpt n) (hr : wfE r) : wfE (mkWireT n r s) :=
  by
  refine mkParam_wf ?_ ⟨hr, signE_wf s, trivial⟩
  null_or hn

theorem dPrim_wf (p : DPrim) : wfE (visitDPrim p) := by
  cases p with
  | vec kw s => exact wireT_wf (n := .id none kw) (r := .symb none .NULL) (.inr trivial) trivial
  | atom kw s => cases s <;> first | exact trivial | exact ⟨trivial, ⟨trivial, trivial, trivial⟩, trivial⟩
  | nonInt kw => trivial

theorem fillWidth_wf {d t : Expr} (hd : wfOpt d) (ht : wfE t) : wfE (fillWidth d t) := by
  unfold fillWidth
  split
  · simp only [wfE, wfEs] at ht ⊢
    exact ⟨ht.1, by null_or hd, ht.2.2⟩
  · exact ht

theorem mkDim_wf {t d : Expr} (ht : wfE t) (hd : wfOpt d) : wfE (mkDim t d) := by
  rcases hd with rfl | hd
  · exact mkUn_wf ht
  · cases d <;> first | exact mkBin_wf ht hd | simp only [wfE] at hd

theorem handle_wf {s : Expr} (hs : wfOpt s) (h : PathHead) : wfOpt (visitHandle s h) := by
  cases h <;> first | exact hs | exact .inr (append_wf hs trivial) | exact .inr (append_wf (.inr (append_wf hs trivial)) trivial)

theorem pathHead_wf (loc : Bool) (h : PathHead) : wfOpt (visitPathHead loc h) := by
  have hr : wfOpt (if loc then Expr.id none (c! "local") else .null) := by
    cases loc
    · exact .inl rfl
    · exact .inr trivial
  cases h <;> first | exact hr | exact .inr (append_wf hr trivial) | exact handle_wf hr .this | exact handle_wf hr .thisSuper 

mutual
theorem exp_wf : ∀ e : Exp, fullExp e → Post wfE (visitExp e)
  | .prim p, h => by simp only [visitExp]; exact prim_wf p h
  | .opAssign, _ => by simp only [visitExp]; exact post_ok trivial
  | .tagged, _ => by simp only [visitExp]; exact post_ok trivial
  | .unary o p, h => by simp only [visitExp]; exact post_bind (prim_wf p h) fun _ h => post_pure (mkUn_wf h)
  | .incDec _ _ l, h => by simp only [visitExp]; exact post_bind (lVal_wf l h) fun _ h => post_pure (mkUn_wf h)
  | .bin a o b, h => by simp only [visitExp]; exact post_bind (exp_wf a h.1) fun _ h1 => post_bind (exp_wf b h.2) fun _ h2 => post_pure (mkBin_wf h1 h2)
  | .tripleAnd .., _ => by simp only [visitExp]; exact post_err
  | .inside _, _ => by simp only [visitExp]; exact post_ok trivial
  | .cond c m t e, h => by
    simp only [visitExp]
    split
    · exact post_ok trivial
    · exact post_bind (exp_wf c h.1) fun _ h1 => post_bind (exp_wf t h.2.1) fun _ h2 => post_bind (exp_wf e h.2.2) fun _ h3 =>
        post_pure (mkTernary_wf h1 h2 (.inr h3))
theorem prim_wf : ∀ p : Prim, fullPrim p → Post wfE (visitPrim p)
  | .lit l, _ => by simp only [visitPrim]; exact lit_wf l
  | .path p, h => by simp only [visitPrim]; exact path_wf p h
  | .par m, h => by simp only [visitPrim]; exact mtm_wf m h
  | .cast, _ => by simp only [visitPrim]; exact post_ok trivial
  | .cast2 p e, h => by simp only [visitPrim]; exact post_bind (prim_wf p h.1) fun _ h1 => post_bind (exp_wf e h.2) fun _ h2 => post_pure (mkBin_wf h1 h2)
  | .bitSel p e, h => by
    simp only [visitPrim]; exact post_bind (prim_wf p h.1) fun _ h1 => post_bind (exp_wf e h.2) fun _ h2 => post_pure (append_wf (.inr h1) h2)
  | .dot p i, h => by
    simp only [visitPrim]; exact post_bind (prim_wf p h) fun _ h1 => post_bind (ident_wf i) fun _ h2 => post_pure (append_wf (.inr h1) h2)
  | .index p r, h => by
    simp only [visitPrim]; exact post_bind (prim_wf p h.1) fun _ h1 => post_bind (aRange_wf r h.2) fun _ h2 => post_pure (append_wf (.inr h1) h2)
  | .concat c, h => by simp only [visitPrim]; exact concatR_wf c h
  | .streaming, _ => by simp only [visitPrim]; exact post_ok trivial
  | .tfCall0 _, _ => by simp only [visitPrim]; exact post_ok (mkCall_wf trivial trivial)
  | .tfCall _ l _, h => by simp only [visitPrim]; exact post_bind (args_wf true l h) fun _ h1 => post_pure (mkCall_wf trivial h1)
  | .tfCallT _ t l _, h => by
    simp only [visitPrim]; exact post_bind (dType_wf t h.1) fun _ h1 => post_bind (args_wf true l h.2) fun _ h2 => post_pure (mkCall_wf trivial ⟨h1, h2⟩)
  | .randomize, _ => by simp only [visitPrim]; exact post_ok trivial
  | .randomize2, _ => by simp only [visitPrim]; exact post_ok trivial
  | .assig _ a, h => by simp only [visitPrim]; exact pattern_wf a h
  | .typeRef t, h => by simp only [visitPrim]; exact tRef_wf t h
  | .call0 p _ _, h => by simp only [visitPrim]; exact prim_wf p h
  | .call p _ l _, h => by
    simp only [visitPrim]; exact post_bind (prim_wf p h.1) fun _ h1 => post_bind (args_wf true l h.2) fun _ h2 => post_pure (mkCall_wf h1 h2)
  | .methodNoArgs p _, h => by simp only [visitPrim]; exact post_bind (prim_wf p h) fun _ h1 => post_pure (mkCall_wf h1 trivial)
  | .callWith p _ _, h => by simp only [visitPrim]; exact post_bind (prim_wf p h.1) fun _ h1 => post_pure (mkCall_wf h1 trivial)
theorem mtm_wf : ∀ m : MTM, fullMTM m → Post wfE (visitMTM m)
  | .one e, h => by simp only [visitMTM]; exact exp_wf e h
  | .three a _ _, h => by simp only [visitMTM]; exact exp_wf a h.1
theorem aRange_wf : ∀ r : ARange, fullARange r → Post wfE (visitARange r)
  | .one e, h => by simp only [visitARange]; exact exp_wf e h
  | .range a b, h => by simp only [visitARange]; exact post_bind (exp_wf a h.1) fun _ h1 => post_bind (exp_wf b h.2) fun _ h2 => post_pure (mkBin_wf h1 h2)
  | .plus a b, h => by simp only [visitARange]; exact post_bind (exp_wf a h.1) fun _ h1 => post_bind (exp_wf b h.2) fun _ h2 => post_pure (mkBin_wf h1 h2)
  | .minus a b, h => by simp only [visitARange]; exact post_bind (exp_wf a h.1) fun _ h1 => post_bind (exp_wf b h.2) fun _ h2 => post_pure (mkBin_wf h1 h2)
theorem concatR_wf : ∀ c : Concat, fullConcat c → Post wfE (visitConcat c)
  | .list l, h => by
    simp only [visitConcat]
    exact post_bind (exps_wf l h.2) fun r h1 => post_pure (concat_wf (fun hr => h.1 (List.length_eq_zero_iff.1 (h1.2 ▸ hr ▸ rfl))) h1.1)
  | .repl n c, h => by
    simp only [visitConcat]; exact post_bind (exp_wf n h.1) fun _ h1 => post_bind (concatR_wf c h.2) fun _ h2 => post_pure (mkBin_wf h1 h2)
theorem exps_wf : ∀ l : List Exp, fullExps l → Post (fun r => wfEs r ∧ r.length = l.length) (visitExps l)
  | [], _ => by simp only [visitExps]; exact post_ok ⟨trivial, rfl⟩
  | e :: l, h => by
    simp only [visitExps]
    exact post_bind (exp_wf e h.1) fun _ h1 => post_bind (exps_wf l h.2) fun _ h2 => post_pure ⟨⟨h1, h2.1⟩, by simp [h2.2]⟩
theorem path_wf : ∀ p : Path, fullPath p → Post wfE (visitPath p)
  | .mk loc h l, hl => by
    simp only [visitPath]
    refine post_bind (pathItems_wf _ (pathHead_wf loc h) l hl) fun r hr => ?_
    split
    · exact post_err
    · rename_i hn; exact post_pure (hr.resolve_left hn)
theorem pathItems_wf (s : Expr) (hs : wfOpt s) : ∀ l : List PathItem, fullPathItems l → Post wfOpt (visitPathItems s l)
  | [], _ => by simp only [visitPathItems]; exact post_ok hs
  | i :: l, h => by simp only [visitPathItems]; exact post_bind (pathItem_wf s hs i h.1) fun r h1 => pathItems_wf r (.inr h1) l h.2
theorem pathItem_wf (s : Expr) (hs : wfOpt s) : ∀ i : PathItem, fullPathItem i → Post wfE (visitPathItem s i)
  | .mk i p, h => by simp only [visitPathItem]; exact post_bind (ident_wf i) fun _ h1 => pva_wf _ (append_wf hs h1) p h
theorem pva_wf (e : Expr) (he : wfE e) : ∀ p : PVA, fullPVA p → Post wfE (visitPVA e p)
  | .none, _ => by simp only [visitPVA]; exact post_ok he
  | .ordered l, h => by simp only [visitPVA]; exact post_bind (pExprs_wf l h) fun _ h1 => post_pure (mkParam_wf he h1)
  | .named l, h => by simp only [visitPVA]; exact post_bind (namedPs_wf l h) fun _ h1 => post_pure (mkParam_wf he h1)
theorem pExprs_wf : ∀ l : List PExpr, fullPExprs l → Post wfEs (visitPExprs l)
  | [], _ => by simp only [visitPExprs]; exact post_ok trivial
  | e :: l, h => by simp only [visitPExprs]; exact post_bind (pExpr_wf e h.1) fun _ h1 => post_bind (pExprs_wf l h.2) fun _ h2 => post_pure ⟨h1, h2⟩
theorem pExpr_wf : ∀ e : PExpr, fullPExpr e → Post wfE (visitPExpr e)
  | .mtm m, h => by simp only [visitPExpr]; exact mtm_wf m h
  | .type t, h => by simp only [visitPExpr]; exact dType_wf t h
theorem namedPs_wf : ∀ l : List NamedP, fullNamedPs l → Post wfEs (visitNamedPs l)
  | [], _ => by simp only [visitNamedPs]; exact post_ok trivial
  | e :: l, h => by simp only [visitNamedPs]; exact post_bind (namedP_wf e h.1) fun _ h1 => post_bind (namedPs_wf l h.2) fun _ h2 => post_pure ⟨h1, h2⟩
theorem namedP_wf : ∀ e : NamedP, fullNamedP e → Post wfE (visitNamedP e)
  | .empty i, _ => by simp only [visitNamedP]; exact post_bind (ident_wf i) fun _ h1 => post_pure (mkBin_wf h1 trivial)
  | .val i e, h => by simp only [visitNamedP]; exact post_bind (ident_wf i) fun _ h1 => post_bind (pExpr_wf e h) fun _ h2 => post_pure (mkBin_wf h1 h2)
theorem dType_wf : ∀ t : DType, fullDType t → Post wfE (visitDType t)
  | .string, _ => by simp only [visitDType]; exact post_ok trivial
  | .chandle, _ => by simp only [visitDType]; exact post_ok trivial
  | .virtual i p m, h => by
    simp only [visitDType]
    refine post_bind (ident_wf i) fun _ h1 => post_bind (pva_wf _ h1 p h) fun _ h2 => ?_
    cases m with
    | none => exact post_pure h2
    | some m => exact post_bind (ident_wf m) fun _ h3 => post_pure (mkBin_wf h2 h3)
  | .event, _ => by simp only [visitDType]; exact post_ok trivial
  | .prim p l, h => by simp only [visitDType]; exact vDims_wf _ _ (dPrim_wf p) l h
  | .enum l, h => by simp only [visitDType]; exact vDims_wf _ _ (by exact trivial) l h
  | .struct l, h => by simp only [visitDType]; exact vDims_wf _ _ (by exact trivial) l h
  | .path p l, h => by simp only [visitDType]; exact post_bind (path_wf p h.1) fun _ h1 => vDims_wf _ _ h1 l h.2
  | .typeRef t, h => by simp only [visitDType]; exact tRef_wf t h
theorem vDims_wf (b : Bool) (t : Expr) (ht : wfE t) : ∀ l : List VDim, fullVDims l → Post wfE (visitVDims b t l)
  | [], _ => by simp only [visitVDims]; exact post_ok ht
  | d :: l, h => by
    simp only [visitVDims]
    refine post_bind (vDim_wf d h.1) fun _ h1 => ?_
    split
    · exact vDims_wf false _ (fillWidth_wf h1 ht) l h.2
    · exact vDims_wf false _ (mkDim_wf ht h1) l h.2
theorem vDim_wf : ∀ d : VDim, fullVDim d → Post wfOpt (visitVDim d)
  | .empty, _ => by simp only [visitVDim]; exact post_ok (.inl rfl)
  | .star, _ => by simp only [visitVDim]; exact post_ok (.inl rfl)
  | .type t, h => by simp only [visitVDim]; exact post_mono (dType_wf t h) fun _ => .inr
  | .range r, h => by simp only [visitVDim]; exact post_mono (aRange_wf r h) fun _ => .inr
theorem tRef_wf : ∀ t : TRef, fullTRef t → Post wfE (visitTRef t)
  | .expr e, h => by simp only [visitTRef]; exact post_bind (exp_wf e h) fun _ h1 => post_pure (mkUn_wf h1)
  | .type t, h => by simp only [visitTRef]; exact post_bind (dType_wf t h) fun _ h1 => post_pure (mkUn_wf h1)
theorem pattern_wf : ∀ a : Pattern, fullPattern a → Post wfE (visitPattern a)
  | .list l, h => by simp only [visitPattern]; exact post_bind (exps_wf l h) fun _ h1 => post_pure (by simp only [wfE]; exact h1.1)
  | .keyed l, h => by simp only [visitPattern]; exact post_bind (kvs_wf l h) fun _ h1 => post_pure (by simp only [wfE]; exact h1)
  | .repl _ l, h => by simp only [visitPattern]; exact post_bind (exps_wf l h.2) fun _ _ => post_pure trivial
theorem kvs_wf : ∀ l : List KV, fullKVs l → Post wfEs (visitKVs l)
  | [], _ => by simp only [visitKVs]; exact post_ok trivial
  | e :: l, h => by simp only [visitKVs]; exact post_bind (kv_wf e h.1) fun _ h1 => post_bind (kvs_wf l h.2) fun _ h2 => post_pure ⟨h1, h2⟩
theorem kv_wf : ∀ e : KV, fullKV e → Post wfE (visitKV e)
  | .mk k e, h => by simp only [visitKV]; exact post_bind (exp_wf e h.2) fun _ h1 => post_bind (key_wf k h.1) fun _ h2 => post_pure (mkBin_wf h2 h1)
theorem key_wf : ∀ k : Key, fullKey k → Post wfE (visitKey k)
  | .ident i, _ => by simp only [visitKey]; exact ident_wf i
  | .dflt, _ => by simp only [visitKey]; exact post_ok trivial
  | .intType, _ => by simp only [visitKey]; exact post_ok trivial
  | .nonIntType, _ => by simp only [visitKey]; exact post_ok trivial
  | .path p, h => by simp only [visitKey]; exact path_wf p h
  | .expr e, h => by simp only [visitKey]; exact exp_wf e h
theorem lVal_wf : ∀ l : LVal, fullLVal l → Post wfE (visitLVal l)
  | .brace l, h => by
    simp only [visitLVal]
    exact post_bind (lVals_wf l h.2) fun r h1 => post_pure (concat_wf (fun hr => h.1 (List.length_eq_zero_iff.1 (h1.2 ▸ hr ▸ rfl))) h1.1)
  | .hier h, hh => by simp only [visitLVal]; exact hSel_wf h hh
  | .pattern, _ => by simp only [visitLVal]; exact post_err
  | .streaming, _ => by simp only [visitLVal]; exact post_ok trivial
theorem lVals_wf : ∀ l : List LVal, fullLVals l → Post (fun r => wfEs r ∧ r.length = l.length) (visitLVals l)
  | [], _ => by simp only [visitLVals]; exact post_ok ⟨trivial, rfl⟩
  | e :: l, h => by
    simp only [visitLVals]
    exact post_bind (lVal_wf e h.1) fun _ h1 => post_bind (lVals_wf l h.2) fun _ h2 => post_pure ⟨⟨h1, h2.1⟩, by simp [h2.2]⟩
theorem hSel_wf : ∀ h : HSel, fullHSel h → Post wfE (visitHSel h)
  | .mk p b m s, h => by
    simp only [visitHSel]; exact post_bind (path_wf p h.1) fun _ h1 => post_bind (bits_wf _ (.inr h1) b h.2.1) fun _ h2 => sel_wf _ (h2 h1) s h.2.2.2
theorem bits_wf (r : Expr) (hr : wfOpt r) : ∀ l : List Exp, fullExps l → Post (fun r' => wfE r → wfE r') (visitBits r l)
  | [], _ => by simp only [visitBits]; exact post_ok id
  | e :: l, h => by
    simp only [visitBits]
    exact post_bind (exp_wf e h.1) fun _ h1 => post_mono (bits_wf _ (.inr (append_wf hr h1)) l h.2) fun _ h2 _ => h2 (append_wf hr h1)
theorem sel_wf (r : Expr) (hr : wfE r) : ∀ s : Sel, fullSel s → Post wfE (visitSel r s)
  | .none, _ => by simp only [visitSel]; exact post_ok hr
  | .range a b, h => by
    simp only [visitSel]; exact post_bind (exp_wf a h.1) fun _ h1 => post_bind (exp_wf b h.2) fun _ h2 => post_pure (append_wf (.inr hr) (mkBin_wf h1 h2))
  | .plus a b, h => by
    simp only [visitSel]; exact post_bind (exp_wf a h.1) fun _ h1 => post_bind (exp_wf b h.2) fun _ h2 => post_pure (append_wf (.inr hr) (mkBin_wf h1 h2))
  | .minus a b, h => by
    simp only [visitSel]; exact post_bind (exp_wf a h.1) fun _ h1 => post_bind (exp_wf b h.2) fun _ h2 => post_pure (append_wf (.inr hr) (mkBin_wf h1 h2))
theorem args_wf (b : Bool) : ∀ l : List Arg, fullArgs l → Post wfEs (visitArgs b l)
  | [], _ => by simp only [visitArgs]; exact post_ok trivial
  | .comma :: l, h => by
    simp only [visitArgs]
    exact post_bind (args_wf true l h.2) fun _ h1 => post_pure (by
      split
      · exact ⟨trivial, h1⟩
      · exact h1)
  | .expr e :: l, h => by
    simp only [visitArgs]; exact post_bind (exp_wf e h.1) fun _ h1 => post_bind (args_wf false l h.2) fun _ h2 => post_pure ⟨h1, h2⟩
  | .namedEmpty i :: l, h => by
    simp only [visitArgs]; exact post_bind (ident_wf i) fun _ h1 => post_bind (args_wf false l h.2) fun _ h2 => post_pure ⟨mkBin_wf h1 trivial, h2⟩
  | .named i e :: l, h => by
    simp only [visitArgs]
    exact post_bind (ident_wf i) fun _ h0 => post_bind (exp_wf e h.1) fun _ h1 => post_bind (args_wf false l h.2) fun _ h2 =>
      post_pure ⟨mkBin_wf h0 h1, h2⟩
end

theorem condPred_wf {c : CondPred} (h : fullCondPred c) : Post wfE (visitCondPred c) := exp_wf _ h.1

theorem opAssign_wf {a : OpAssign} (h : fullOpAssign a) : Post wfE (visitOpAssign a) := by
  unfold visitOpAssign
  exact post_bind (lVal_wf _ h.1) fun _ h1 => post_bind (exp_wf _ h.2) fun _ h2 => post_pure (mkBin_wf h1 h2)

theorem hierParts_wf : ∀ (l : List (Ident × List Exp)) {s : Expr}, wfOpt s → (∀ p ∈ l, fullExps p.2) →
    Post (fun r => wfOpt r ∧ (wfE s ∨ l ≠ [] → wfE r)) (visitHierParts s l)
  | [], _, hs, _ => by simp only [visitHierParts]; exact post_ok ⟨hs, fun h => h.resolve_right fun h => h rfl⟩
  | (i, b) :: l, s, hs, h => by
    simp only [visitHierParts]
    refine post_bind (ident_wf i) fun _ h1 => ?_
    refine post_bind (bits_wf _ (.inr (append_wf hs h1)) b (h _ (.head _))) fun r h2 => ?_
    have h3 := h2 (append_wf hs h1)
    exact post_mono (hierParts_wf l (.inr h3) fun p hp => h p (.tail _ hp)) fun a ha => ⟨ha.1, fun _ => ha.2 (.inl h3)⟩

theorem hierId_wf {h : HierId} (hh : fullHierId h) : Post wfE (visitHierId h) := by
  unfold visitHierId
  refine post_bind (hierParts_wf _ ?_ hh) fun _ h1 => post_bind (ident_wf _) fun _ h2 => post_pure (append_wf h1.1 h2)
  split
  · exact .inr trivial
  · exact .inl rfl

theorem packedDim_wf {d : Option ARange} (h : fullOpt fullARange d) : Post wfOpt (visitPackedDim d) := by
  cases d with
  | none => exact post_ok (.inl rfl)
  | some r => exact post_mono (aRange_wf r (h r rfl)) fun _ => .inr

theorem packedDims_wf : ∀ (l : List (Option ARange)) {e : Expr}, wfE e → (∀ d ∈ l, fullOpt fullARange d) → Post wfE (visitPackedDims e l)
  | [], _, he, _ => by simp only [visitPackedDims]; exact post_ok he
  | d :: l, _, he, h => by
    simp only [visitPackedDims]
    exact post_bind (packedDim_wf (h d (.head _))) fun _ h1 => packedDims_wf l (mkDim_wf he h1) fun d hd => h d (.tail _ hd)

theorem implType_wf {n : Expr} (hn : wfOpt n) {t : Option ImplType} (h : fullOpt fullImplType t) : Post wfE (visitImplType n t) := by
  cases t with
  | none => exact post_ok (by null_or hn)
  | some t =>
    have h := h t rfl
    obtain ⟨s, l⟩ := t
    cases l with
    | nil => exact post_ok (wireT_wf (.inl rfl) trivial)
    | cons d l =>
      simp only [visitImplType]
      exact post_bind (packedDim_wf (h d (.head _))) fun _ h1 => packedDims_wf l (wireT_wf hn (by null_or h1)) fun d hd => h d (.tail _ hd)

theorem typeI_wf {n : Expr} (hn : wfOpt n) {t : Option DTypeOrImpl} (h : fullOpt fullTypeI t) : Post wfE (visitDTypeOrImpl n t) := by
  cases t with
  | none => exact post_ok trivial
  | some t =>
    cases t with
    | type t => exact dType_wf t (h _ rfl)
    | impl t => exact implType_wf hn (by rintro _ ⟨⟩; exact h _ rfl)

theorem unpackedDims_wf : ∀ (l : List ARange) {e : Expr}, wfE e → (∀ r ∈ l, fullARange r) → Post wfE (visitUnpackedDims e l)
  | [], _, he, _ => by simp only [visitUnpackedDims]; exact post_ok he
  | r :: l, _, he, h => by
    simp only [visitUnpackedDims]
    exact post_bind (aRange_wf r (h r (.head _))) fun _ h1 => unpackedDims_wf l (mkBin_wf he h1) fun d hd => h d (.tail _ hd)

theorem applyVDims_wf {t : Expr} (ht : wfE t) {l : List VDim} (h : fullVDims l) : Post wfE (applyVDims t l) := vDims_wf _ t ht l h

/-! ## Declarations -/

theorem optExp_wf {e : Option Exp} (h : fullOpt fullExp e) : Post wfOpt (visitOptExp e) := by
  cases e with
  | none => exact post_ok (.inl rfl)
  | some e => exact post_mono (exp_wf e (h e rfl)) fun _ => .inr

theorem fullOpt_some {α : Type} {P : α → Prop} {a : α} (h : P a) : fullOpt P (some a) := by rintro _ ⟨⟩; exact h

theorem netOrVar_wf {t : Option NetOrVar} (h : fullOpt fullNetOrVar t) : Post (fun r => wfE r.1) (visitNetOrVar t) := by
  cases t with
  | none => exact post_ok trivial
  | some t =>
    have h := h t rfl
    cases t <;> simp only [visitNetOrVar]
    · exact post_bind (implType_wf (.inl rfl) h) fun _ h => post_pure h
    · exact post_bind (typeI_wf (.inl rfl) h) fun _ h => post_pure h
    · exact post_bind (typeI_wf (.inr (by exact trivial)) h) fun _ h => post_pure h
    · exact post_bind (typeI_wf (.inl rfl) (fullOpt_some h)) fun _ h => post_pure h

theorem netPort_wf {t : Option NetPort} (h : fullOpt fullNetPort t) : Post wfE (visitNetPort t) := by
  cases t with
  | none => exact post_ok trivial
  | some t =>
    have h := h t rfl
    cases t <;> simp only [visitNetPort]
    · exact implType_wf (.inl rfl) h
    · exact typeI_wf (.inr (by exact trivial)) h
    · exact typeI_wf (.inl rfl) (fullOpt_some h)

theorem varDType_wf {t : Option VarDType} (h : fullOpt fullVarDType t) : Post wfE (visitVarDType t) := by
  cases t with
  | none => exact post_ok trivial
  | some t =>
    have h := h t rfl
    cases t <;> simp only [visitVarDType]
    · exact typeI_wf (.inl rfl) h
    · exact dType_wf _ h

theorem afterDims_wf {b : Expr} (hb : wfE b) {l : List VDim} (h : fullVDims l) : Post wfE (afterDims b l) := by
  cases l with
  | nil => exact post_ok hb
  | cons d l =>
    simp only [afterDims]
    split
    · exact post_bind (vDim_wf d h.1) fun _ h1 => post_pure (fillWidth_wf h1 hb)
    · exact post_ok hb

theorem iface_wf (i m : Option Ident) : Post wfE (visitIface i m) := by
  unfold visitIface
  refine post_bind (P := wfE) ?_ fun _ h1 => ?_
  · cases i with
    | none => exact post_ok trivial
    | some i => exact ident_wf i
  · cases m with
    | none => exact post_pure h1
    | some m => exact post_bind (ident_wf m) fun _ h2 => post_pure (append_wf (.inr h1) h2)

theorem ansiHead_wf {h : AnsiHead} (hh : fullAnsiHead h) : Post (fun r => wfOpt r.1) (visitAnsiHead h) := by
  cases h with
  | none => exact post_ok (.inl rfl)
  | dir d t =>
    cases t with
    | none => exact post_ok (.inl rfl)
    | some t => exact post_mono (netOrVar_wf hh) fun _ => .inr
  | type t => exact post_mono (netOrVar_wf (fullOpt_some hh)) fun _ => .inr
  | iface i m => exact post_bind (iface_wf i m) fun _ h1 => post_pure (.inr h1)

theorem ansiBase_wf {t b : Expr} (ht : wfOpt t) (hb : wfOpt b) : Post wfE (ansiBase t b) := by
  unfold ansiBase
  split
  · exact post_ok trivial
  · rename_i h; exact clone_wf (hb.resolve_left h)
  · rename_i h _; exact post_ok (ht.resolve_left h)

/-- Type and value of a definition. -/
def wfTV (d : IdDef) : Prop := wfOpt d.type ∧ wfOpt d.value

theorem wfTV_id {d : IdDef} (h : wfTV d) (hd : d.dir ≠ .UNKNOWN) : wfId d := ⟨h.1, h.2, hd⟩

theorem ansiPort_wf {D : Option Dir} {b : Expr} (hb : wfOpt b) {p : AnsiPort} (h : fullAnsiPort p) :
    Post (fun r => wfTV r.1 ∧ wfOpt r.2 ∧ r.1.dir = (match p.dir? with | some d => d.toDir | none => D.getD .UNKNOWN)) (visitAnsiPort D b p) := by
  cases p with
  | expl d n e =>
    simp only [visitAnsiPort]
    exact post_bind post_any fun _ _ => post_bind (optExp_wf h) fun _ h1 => post_pure ⟨⟨.inr trivial, h1⟩, .inl rfl, by cases D <;> rfl⟩
  | decl hd n l v =>
    simp only [visitAnsiPort]
    refine post_bind post_any fun _ _ => post_bind (ansiHead_wf h.1) fun _ h1 => ?_
    refine post_bind (ansiBase_wf h1 ?_) fun _ h2 => ?_
    · split
      · exact .inl rfl
      · exact hb
    exact post_bind (applyVDims_wf h2 h.2.1) fun _ h3 => post_bind (afterDims_wf h2 h.2.1) fun _ h4 => post_bind (optExp_wf h.2.2) fun _ h5 =>
      post_pure ⟨⟨.inr h3, h5⟩, .inr h4, by cases D <;> rfl⟩

theorem toDir_ne (d : PortDir) : d.toDir ≠ .UNKNOWN := by cases d <;> simp [PortDir.toDir]

theorem ansiPorts_wf : ∀ (l : List AnsiPort) {D : Option Dir} {b : Expr}, wfOpt b → (∀ p ∈ l, fullAnsiPort p) →
    Post (fun r => (∀ d ∈ r, wfTV d) ∧ (D.getD .UNKNOWN ≠ .UNKNOWN ∨ (∀ p, l.head? = some p → p.dir?.isSome) → ∀ d ∈ r, d.dir ≠ .UNKNOWN))
      (visitAnsiPorts D b l)
  | [], _, _, _, _ => by simp only [visitAnsiPorts]; exact post_ok (by simp)
  | p :: l, D, b, hb, h => by
    simp only [visitAnsiPorts]
    refine post_bind (ansiPort_wf hb (h p (.head _))) fun r h1 => ?_
    refine post_bind (ansiPorts_wf l h1.2.1 fun p hp => h p (.tail _ hp)) fun r2 h2 => post_pure ?_
    simp only [List.mem_cons, forall_eq_or_imp]
    refine ⟨⟨h1.1, h2.1⟩, fun hu => ?_⟩
    have : r.1.dir ≠ .UNKNOWN := by
      rw [h1.2.2]
      split
      · exact toDir_ne _
      · rename_i hp
        exact hu.resolve_right fun hu => by simpa [hp] using hu p rfl
    exact ⟨this, h2.2 (.inl this)⟩

theorem dotRanges_wf : ∀ (l : List ARange) {e : Expr}, wfE e → (∀ r ∈ l, fullARange r) → Post wfE (visitDotIndexRanges e l)
  | [], _, he, _ => by simp only [visitDotIndexRanges]; exact post_ok he
  | r :: l, _, he, h => by
    simp only [visitDotIndexRanges]
    exact post_bind (aRange_wf r (h r (.head _))) fun _ h1 => dotRanges_wf l (append_wf (.inr he) h1) fun d hd => h d (.tail _ hd)

theorem dotIndex_wf {d : DotIndex} (h : fullDotIndex d) : Post wfE (visitDotIndex d) := by
  unfold visitDotIndex
  refine post_bind (ident_wf _) fun _ h1 => post_bind (P := wfE) ?_ fun _ h2 => dotRanges_wf _ h2 h
  split
  · exact post_ok h1
  · exact post_bind (ident_wf _) fun _ h2 => post_pure (append_wf (.inr h1) h2)

theorem dotIndexes_wf : ∀ l : List DotIndex, (∀ d ∈ l, fullDotIndex d) → Post wfEs (visitDotIndexes l)
  | [], _ => by simp only [visitDotIndexes]; exact post_ok trivial
  | d :: l, h => by
    simp only [visitDotIndexes]
    exact post_bind (dotIndex_wf (h d (.head _))) fun _ h1 => post_bind (dotIndexes_wf l fun d hd => h d (.tail _ hd)) fun _ h2 => post_pure ⟨h1, h2⟩

theorem nonansiExpr_wf {e : NonansiExpr} (h : fullNonansiExpr e) : Post wfOpt (visitNonansiExpr e) := by
  cases e with
  | one d => exact post_mono (dotIndex_wf h) fun _ => .inr
  | brace l =>
    simp only [visitNonansiExpr]
    exact post_bind (dotIndexes_wf l h) fun _ h1 => post_pure (concatOpt_wf h1)

mutual
theorem splitName_wf (n : Str) : ∀ e : Expr, wfE e → Post (fun r => wfE r.2) (splitName n e)
  | .op p o l, h => by
    simp only [wfE] at h
    simp only [splitName]
    exact post_bind (splitHead_wf n l h) fun _ h => post_pure (by simp only [wfE]; exact h)
  | .id .., _ => by simp only [splitName]; exact post_ok trivial
  | .null, _ => by simp only [splitName]; exact post_err
  | .int .., _ => by simp only [splitName]; exact post_err
  | .float .., _ => by simp only [splitName]; exact post_err
  | .str .., _ => by simp only [splitName]; exact post_err
  | .symb .., _ => by simp only [splitName]; exact post_err
  | .notImpl .., _ => by simp only [splitName]; exact post_err
  | .arr .., _ => by simp only [splitName]; exact post_err
  | .enumDef .., _ => by simp only [splitName]; exact post_err
  | .physDef .., _ => by simp only [splitName]; exact post_err
  | .classDef .., _ => by simp only [splitName]; exact post_err
theorem splitHead_wf (n : Str) : ∀ l : List Expr, wfEs l → Post (fun r => wfEs r.2) (splitNameHead n l)
  | [], _ => by simp only [splitNameHead]; exact post_err
  | e :: l, h => by simp only [splitNameHead]; exact post_bind (splitName_wf n e h.1) fun _ h1 => post_pure ⟨h1, h.2⟩
end

theorem splitTypeBase_wf (n : Str) {e : Expr} (h : wfE e) : Post (fun r => wfOpt r.2) (splitTypeBase n e) := by
  unfold splitTypeBase
  split
  · exact post_ok (.inl rfl)
  · exact post_mono (splitName_wf n e h) fun _ => .inr

theorem nonansiPort_wf {p : NonansiPort} (h : fullNonansiPort p) : Post (fun d => wfTV d ∧ d.dir ≠ .UNKNOWN) (visitNonansiPort p) := by
  cases p with
  | named i e =>
    simp only [visitNonansiPort]
    refine post_bind post_any fun _ _ => post_bind (P := wfOpt) ?_ fun _ h1 => post_pure ⟨⟨.inl rfl, h1⟩, by simp⟩
    split
    · exact post_ok (.inl rfl)
    · exact nonansiExpr_wf (h _ rfl)
  | expr e =>
    cases e with
    | one d =>
      simp only [visitNonansiPort, visitNonansiExpr]
      exact post_bind (dotIndex_wf h) fun _ h1 => post_bind (splitTypeBase_wf _ h1) fun _ h2 => post_pure ⟨⟨h2, .inl rfl⟩, by simp⟩
    | brace l =>
      simp only [visitNonansiPort]
      exact post_bind (nonansiExpr_wf h) fun _ h1 => post_pure ⟨⟨.inl rfl, h1⟩, by simp⟩

theorem nonansiPorts_wf : ∀ l : List (Option NonansiPort), (∀ p ∈ l, fullOpt fullNonansiPort p) →
    Post (fun r => ∀ d ∈ r, wfTV d ∧ d.dir ≠ .UNKNOWN) (visitNonansiPorts l)
  | [], _ => by simp only [visitNonansiPorts]; exact post_ok (by simp)
  | none :: l, h => by simp only [visitNonansiPorts]; exact nonansiPorts_wf l fun p hp => h p (.tail _ hp)
  | some p :: l, h => by
    simp only [visitNonansiPorts]
    refine post_bind (nonansiPort_wf (h _ (.head _) p rfl)) fun _ h1 => post_bind (nonansiPorts_wf l fun p hp => h p (.tail _ hp)) fun _ h2 => post_pure ?_
    simp only [List.mem_cons, forall_eq_or_imp]
    exact ⟨h1, h2⟩

/-- A list of definitions that can be converted. -/
def wfIds (l : List IdDef) : Prop := ∀ d ∈ l, wfId d

theorem wfIds_nil : wfIds [] := by simp [wfIds]
theorem wfIds_cons {d : IdDef} {l : List IdDef} (h : wfId d) (h' : wfIds l) : wfIds (d :: l) := by
  intro x hx
  rcases List.mem_cons.1 hx with rfl | hx
  · exact h
  · exact h' x hx
theorem wfIds_append {l l' : List IdDef} (h : wfIds l) (h' : wfIds l') : wfIds (l ++ l') := by
  intro x hx
  rcases List.mem_append.1 hx with hx | hx
  · exact h x hx
  · exact h' x hx

theorem varId_wf {b : Bool} {D : Dir} (hD : D ≠ .UNKNOWN) {t : Expr} (ht : wfE t) {v : VarId} (h : fullVarId v) : Post wfId (visitVarId b D t v) := by
  unfold visitVarId
  exact post_bind (applyVDims_wf ht h.1) fun _ h1 => post_bind post_any fun _ _ => post_bind (optExp_wf h.2) fun _ h2 => post_pure ⟨.inr h1, h2, hD⟩

theorem varIdsRest_wf {b : Bool} {D : Dir} (hD : D ≠ .UNKNOWN) {t : Expr} (ht : wfE t) :
    ∀ l : List VarId, (∀ v ∈ l, fullVarId v) → Post wfIds (visitVarIdsRest b D t l)
  | [], _ => by simp only [visitVarIdsRest]; exact post_ok wfIds_nil
  | v :: l, h => by
    simp only [visitVarIdsRest]
    exact post_bind (clone_wf ht) fun _ h1 => post_bind (varId_wf hD h1 (h v (.head _))) fun _ h2 =>
      post_bind (varIdsRest_wf hD ht l fun v hv => h v (.tail _ hv)) fun _ h3 => post_pure (wfIds_cons h2 h3)

theorem varIds_wf {b : Bool} {D : Dir} (hD : D ≠ .UNKNOWN) {t : Expr} (ht : wfE t) {l : List VarId} (h : ∀ v ∈ l, fullVarId v) :
    Post wfIds (visitVarIds b D t l) := by
  cases l with
  | nil => exact post_ok wfIds_nil
  | cons v l =>
    simp only [visitVarIds]
    exact post_bind (varId_wf hD ht (h v (.head _))) fun _ h2 => post_bind (afterDims_wf ht (h v (.head _)).1) fun _ h1 =>
      post_bind (varIdsRest_wf hD h1 l fun v hv => h v (.tail _ hv)) fun _ h3 => post_pure (wfIds_cons h2 h3)

theorem nonansiDecl_wf {d : NonansiDecl} (h : fullNonansiDecl d) : Post wfIds (visitNonansiDecl d) := by
  cases d <;> simp only [visitNonansiDecl, fullNonansiDecl] at h ⊢
  · exact post_bind (netPort_wf h.1) fun _ h1 => varIds_wf (by simp) h1 h.2
  · exact post_bind (netOrVar_wf h.1) fun _ h1 => varIds_wf (by simp) h1 h.2
  · exact post_bind (netOrVar_wf h.1) fun _ h1 => varIds_wf (by simp) h1 h.2
  · refine post_bind (ident_wf _) fun _ h1 => post_bind (P := wfE) ?_ fun _ h2 => varIds_wf (by simp) h2 h
    split
    · exact post_ok h1
    · exact post_bind (ident_wf _) fun _ h2 => post_pure (mkBin_wf h1 h2)
  · exact post_bind (varDType_wf h.1) fun _ h1 => varIds_wf (by simp) h1 h.2

theorem tfPort_wf {p : TfPort} (h : fullTfPort p) : Post wfId (visitTfPort p) := by
  unfold visitTfPort
  exact post_bind (typeI_wf (.inl rfl) h.1) fun _ h1 => post_bind (applyVDims_wf h1 h.2.1) fun _ h2 => post_bind post_any fun _ _ =>
    post_bind (optExp_wf h.2.2) fun _ h3 => post_pure ⟨.inr h2, h3, by simp⟩

theorem tfPorts_wf : ∀ l : List TfPort, (∀ p ∈ l, fullTfPort p) → Post wfIds (visitTfPorts l)
  | [], _ => by simp only [visitTfPorts]; exact post_ok wfIds_nil
  | p :: l, h => by
    simp only [visitTfPorts]
    exact post_bind (tfPort_wf (h p (.head _))) fun _ h1 => post_bind (tfPorts_wf l fun v hv => h v (.tail _ hv)) fun _ h2 => post_pure (wfIds_cons h1 h2)

theorem tfPortDecl_wf {d : TfPortDecl} (h : fullTfPortDecl d) : Post wfIds (visitTfPortDecl d) := by
  unfold visitTfPortDecl
  refine post_bind (typeI_wf (.inl rfl) h.1) fun _ h1 => varIds_wf ?_ h1 h.2
  split
  · simp
  · cases d.dir with
    | constRef => simp [TfDir.toDir]
    | dir d => exact toDir_ne d

theorem paramAssign_wf {p : ParamAssign} (h : fullParamAssign p) : Post wfId (visitParamAssign p) := by
  unfold visitParamAssign
  refine post_bind (P := wfOpt) ?_ fun _ h1 => post_bind post_any fun _ _ => post_pure ⟨.inr trivial, h1, by simp⟩
  split
  · exact post_ok (.inl rfl)
  · rename_i e he; exact post_mono (pExpr_wf e (h.2 e he)) fun _ => .inr

theorem paramAssigns_wf : ∀ l : List ParamAssign, (∀ p ∈ l, fullParamAssign p) → Post wfIds (visitParamAssigns l)
  | [], _ => by simp only [visitParamAssigns]; exact post_ok wfIds_nil
  | p :: l, h => by
    simp only [visitParamAssigns]
    exact post_bind (paramAssign_wf (h p (.head _))) fun _ h1 => post_bind (paramAssigns_wf l fun v hv => h v (.tail _ hv)) fun _ h2 =>
      post_pure (wfIds_cons h1 h2)

theorem setTypesRest_wf {t : Expr} (ht : wfE t) : ∀ l : List IdDef, wfIds l → Post wfIds (setTypesRest t l)
  | [], _ => by simp only [setTypesRest]; exact post_ok wfIds_nil
  | d :: l, h => by
    simp only [setTypesRest]
    have hd := h d (.head _)
    exact post_bind (clone_wf ht) fun _ h1 => post_bind (setTypesRest_wf ht l fun v hv => h v (.tail _ hv)) fun _ h2 =>
      post_pure (wfIds_cons ⟨.inr h1, hd.2⟩ h2)

theorem typedParams_wf {t : Expr} (ht : wfE t) {l : List ParamAssign} (h : ∀ p ∈ l, fullParamAssign p) : Post wfIds (visitTypedParams t l) := by
  unfold visitTypedParams
  refine post_bind (paramAssigns_wf l h) fun r h1 => ?_
  cases r with
  | nil => exact post_pure wfIds_nil
  | cons d r => exact post_bind (setTypesRest_wf ht r fun v hv => h1 v (.tail _ hv)) fun _ h2 => post_pure (wfIds_cons ⟨.inr ht, (h1 d (.head _)).2⟩ h2)

theorem typeAssigns_wf : ∀ l : List TypeAssign, (∀ a ∈ l, fullTypeAssign a) → Post wfIds (visitTypeAssigns l)
  | [], _ => by simp only [visitTypeAssigns]; exact post_ok wfIds_nil
  | a :: l, h => by
    simp only [visitTypeAssigns]
    refine post_bind post_any fun _ _ => post_bind (P := wfOpt) ?_ fun _ h1 => post_bind (typeAssigns_wf l fun v hv => h v (.tail _ hv)) fun _ h2 =>
      post_pure (wfIds_cons ⟨.inr trivial, h1, by simp⟩ h2)
    split
    · exact post_ok (.inl rfl)
    · rename_i t ht; exact post_mono (dType_wf t (h a (.head _) t ht)) fun _ => .inr

theorem paramDecl_wf {d : ParamDecl} (h : fullParamDecl d) : Post wfIds (visitParamDecl d) := by
  cases d with
  | type l => exact typeAssigns_wf l h
  | val t l =>
    simp only [visitParamDecl]
    exact post_bind (typeI_wf (.inl rfl) h.1) fun _ h1 => typedParams_wf h1 h.2

theorem wfIds_map {f : IdDef → IdDef} (hf : ∀ d, wfId d → wfId (f d)) {l : List IdDef} (h : wfIds l) : wfIds (l.map f) := by
  intro d hd
  obtain ⟨x, hx, rfl⟩ := List.mem_map.1 hd
  exact hf x (h x hx)

theorem localparam_wf {d : ParamDecl} (h : fullParamDecl d) : Post wfIds (visitLocalparam d) := by
  unfold visitLocalparam
  exact post_bind (paramDecl_wf h) fun _ h1 => post_pure (wfIds_map (f := fun d => { d with const := true }) (fun _ h => h) h1)

theorem portParam_wf {d : PortParam} (h : fullPortParam d) : Post wfIds (visitPortParam d) := by
  cases d with
  | type l => exact typeAssigns_wf l h
  | param d => exact paramDecl_wf h
  | localparam d => exact localparam_wf h
  | typed t l =>
    simp only [visitPortParam]
    exact post_bind (dType_wf t h.1) fun _ h1 => typedParams_wf h1 h.2

theorem portParams_wf : ∀ l : List PortParam, (∀ p ∈ l, fullPortParam p) → Post wfIds (visitPortParams l)
  | [], _ => by simp only [visitPortParams]; exact post_ok wfIds_nil
  | p :: l, h => by
    simp only [visitPortParams]
    exact post_bind (portParam_wf (h p (.head _))) fun _ h1 => post_bind (portParams_wf l fun v hv => h v (.tail _ hv)) fun _ h2 =>
      post_pure (wfIds_append h1 h2)

theorem paramPorts_wf {d : ParamPorts} (h : fullParamPorts d) : Post wfIds (visitParamPorts d) := by
  cases d with
  | assigns l r => exact paramAssigns_wf l h.1
  | decls l => exact portParams_wf l h

theorem varInit_wf {i : VarInit} (h : fullVarInit i) : Post wfOpt (visitVarInit i) := by
  cases i with
  | none => exact post_ok (.inl rfl)
  | expr e => exact post_mono (exp_wf e h) fun _ => .inr
  | new => exact post_ok (.inl rfl)

theorem varDecls_wf {t : Expr} (ht : wfE t) : ∀ l : List VarDecl, (∀ v ∈ l, fullVarDecl v) → Post wfIds (visitVarDecls t l)
  | [], _ => by simp only [visitVarDecls]; exact post_ok wfIds_nil
  | v :: l, h => by
    simp only [visitVarDecls]
    have hv := h v (.head _)
    exact post_bind post_any fun _ _ => post_bind (clone_wf ht) fun _ h1 => post_bind (applyVDims_wf h1 hv.1) fun _ h2 => post_bind (varInit_wf hv.2)
      fun _ h3 => post_bind (varDecls_wf ht l fun v hv => h v (.tail _ hv)) fun _ h4 => post_pure (wfIds_cons ⟨.inr h2, h3, by simp⟩ h4)

theorem typeDecl_wf {d : TypeDecl} (h : fullTypeDecl d) : Post wfId (visitTypeDecl d) := by
  cases d <;> simp only [visitTypeDecl]
  · exact post_bind (dType_wf _ h.1) fun _ h1 => post_bind (applyVDims_wf h1 h.2) fun _ h2 => post_bind post_any fun _ _ =>
      post_pure ⟨.inr trivial, .inr h2, by simp⟩
  · exact post_bind post_any fun _ _ => post_pure ⟨.inr trivial, .inr trivial, by simp⟩
  · refine post_bind (hierParts_wf _ (.inl rfl) ?_) fun _ h1 => post_bind (ident_wf _) fun _ h2 => post_bind post_any fun _ _ =>
      post_pure ⟨.inr trivial, .inr (mkBin_wf (h1.2 (.inr (by simp))) h2), by simp⟩
    simp only [List.mem_cons, List.not_mem_nil, or_false, forall_eq]
    exact h
  · exact post_err

theorem importItems_wf : ∀ l : List ImportItem, Post wfEs (visitImportItems l)
  | [] => by simp only [visitImportItems]; exact post_ok trivial
  | i :: l => by
    simp only [visitImportItems]
    refine post_bind (ident_wf _) fun _ h1 => post_bind (P := wfE) ?_ fun _ h2 => post_bind (importItems_wf l) fun _ h3 => post_pure ⟨h1, h2, h3⟩
    split
    · exact post_ok trivial
    · exact ident_wf _

theorem wfs_map_id {f : IdDef → IdDef} (hf : ∀ d, wfId d → wfId (f d)) : ∀ {l : List IdDef}, wfIds l → wfs (l.map fun d => .id (f d))
  | [], _ => trivial
  | d :: _, h => ⟨hf d (h d (.head _)), wfs_map_id hf fun d hd => h d (.tail _ hd)⟩

theorem wfs_ids {l : List IdDef} (h : wfIds l) : wfs (l.map .id) := wfs_map_id (fun _ h => h) h

theorem dataDecl_wf {d : DataDecl} (h : fullDataDecl d) : Post wfs (visitDataDecl d) := by
  cases d <;> simp only [visitDataDecl]
  · rename_i c life t l
    exact post_bind (typeI_wf (.inl rfl) h.1) fun _ h1 => post_bind (varDecls_wf h1 _ h.2) fun _ h2 =>
      post_pure (wfs_map_id (f := fun d => { d with const := c, static := visitLifetime life }) (fun _ h => h) h2)
  · exact post_bind (typeDecl_wf h) fun _ h1 => post_pure ⟨h1, trivial⟩
  · exact post_bind (importItems_wf _) fun _ h1 => post_pure ⟨h1, trivial⟩
  · exact post_ok trivial

theorem netAssign_wf {t : Expr} (ht : wfE t) {n : NetAssign} (h : fullNetAssign n) : Post wfId (visitNetAssign t n) := by
  unfold visitNetAssign
  exact post_bind post_any fun _ _ => post_bind (optExp_wf h.2) fun _ h1 => post_bind (unpackedDims_wf _ ht h.1) fun _ h2 =>
    post_pure ⟨.inr h2, h1, by simp⟩

theorem netAssignsRest_wf {t : Expr} (ht : wfE t) : ∀ l : List NetAssign, (∀ n ∈ l, fullNetAssign n) → Post wfIds (visitNetAssignsRest t l)
  | [], _ => by simp only [visitNetAssignsRest]; exact post_ok wfIds_nil
  | n :: l, h => by
    simp only [visitNetAssignsRest]
    exact post_bind (clone_wf ht) fun _ h1 => post_bind (netAssign_wf h1 (h n (.head _))) fun _ h2 =>
      post_bind (netAssignsRest_wf ht l fun v hv => h v (.tail _ hv)) fun _ h3 => post_pure (wfIds_cons h2 h3)

theorem netAssigns_wf {t : Expr} (ht : wfE t) {l : List NetAssign} (h : ∀ n ∈ l, fullNetAssign n) : Post wfIds (visitNetAssigns t l) := by
  cases l with
  | nil => exact post_ok wfIds_nil
  | cons n l =>
    simp only [visitNetAssigns]
    exact post_bind (netAssign_wf ht (h n (.head _))) fun _ h2 =>
      post_bind (netAssignsRest_wf ht l fun v hv => h v (.tail _ hv)) fun _ h3 => post_pure (wfIds_cons h2 h3)

theorem netDecl_wf {d : NetDecl} (h : fullNetDecl d) : Post wfIds (visitNetDecl d) := by
  cases d with
  | interconnect => exact post_ok wfIds_nil
  | net kw x t l =>
    simp only [visitNetDecl]
    split
    · exact post_ok wfIds_nil
    · exact post_bind (typeI_wf (.inr (by exact trivial)) h.1) fun _ h1 => netAssigns_wf h1 h.2
  | user i l => exact netAssigns_wf (by exact trivial) h

/-! ## Statements -/

theorem wfs_append : ∀ {l m : List Obj}, wfs l → wfs m → wfs (l ++ m)
  | [], _, _, h => h
  | _ :: _, _, h, h' => ⟨h.1, wfs_append h.2 h'⟩

mutual
theorem eventItem_wf : ∀ i : EventItem, fullEventItem i → Post wfEs (visitEventItem i)
  | .par l, h => by simp only [visitEventItem]; exact eventItems_wf l h
  | .ev edge e i, h => by
    simp only [visitEventItem]
    refine post_bind (exp_wf e h.1) fun _ h1 => post_pure ⟨?_, trivial⟩
    split <;> first | exact h1 | exact mkUn_wf h1
theorem eventItems_wf : ∀ l : List EventItem, fullEventItems l → Post wfEs (visitEventItems l)
  | [], _ => by simp only [visitEventItems]; exact post_ok trivial
  | i :: l, h => by
    simp only [visitEventItems]; exact post_bind (eventItem_wf i h.1) fun _ h1 => post_bind (eventItems_wf l h.2) fun _ h2 => post_pure (wfEs_append h1 h2)
end

theorem eventCtl_wf {e : EventCtl} (h : fullEventCtl e) : Post wfEs (visitEventCtl e) := by
  cases e with
  | star => exact post_ok ⟨trivial, trivial⟩
  | id h' => exact post_bind (hSel_wf _ h) fun _ h1 => post_pure ⟨h1, trivial⟩
  | events l => exact eventItems_wf l h

theorem psIdent_wf (p : Option PkgScope) (i : Ident) : Post wfE (visitPsIdent p i) := by
  unfold visitPsIdent
  refine post_bind (ident_wf i) fun _ h1 => ?_
  cases p with
  | none => exact post_pure h1
  | some p =>
    refine post_bind (P := wfE) ?_ fun _ h2 => post_pure (mkBin_wf h2 h1)
    cases p with
    | none => exact post_ok trivial
    | some i => exact ident_wf i

theorem delayVal_wf {v : DelayVal} (h : fullDelayVal v) : Post wfE (visitDelayVal v) := by
  cases v with
  | num t => exact post_ok trivial
  | time t => exact lit_wf (.time t)
  | step1 => exact post_ok trivial
  | real t => exact lit_wf (.real t)
  | ps p i => exact psIdent_wf p i
  | hier h' => exact hierId_wf h

theorem delayCtl_wf {d : DelayCtl} (h : fullDelayCtl d) : Post wfE (visitDelayCtl d) := by
  cases d with
  | mtm m => exact mtm_wf m h
  | value v => exact delayVal_wf h

/-- A delay or a list of events. -/
def wfDE (r : Expr × Option (List Expr)) : Prop := wfOpt r.1 ∧ wfEs (r.2.getD [])

theorem timingCtl_wf {t : TimingCtl} (h : fullTimingCtl t) : Post wfDE (visitTimingCtl t) := by
  cases t with
  | delay d => exact post_bind (delayCtl_wf h) fun _ h1 => post_pure ⟨.inr h1, trivial⟩
  | event e => exact post_bind (eventCtl_wf h) fun _ h1 => post_pure ⟨.inl rfl, h1⟩
  | cycle => exact post_ok ⟨.inr trivial, trivial⟩
  | cycleRange => exact post_ok ⟨.inr trivial, trivial⟩

theorem delayOrEvent_wf {t : DelayOrEvent} (h : fullDelayOrEvent t) : Post wfDE (visitDelayOrEvent t) := by
  cases t with
  | delay d => exact post_bind (delayCtl_wf h) fun _ h1 => post_pure ⟨.inr h1, trivial⟩
  | event r e => exact post_bind (eventCtl_wf h.2) fun _ h1 => post_pure ⟨.inl rfl, h1⟩

theorem assign_wf {d s dl : Expr} {ev : Option (List Expr)} {b : Bool} (hd : wfE d) (hs : wfE s) (h : wfDE (dl, ev)) :
    Post wf (mkAssign d s dl ev b) := by
  unfold mkAssign
  split
  · exact post_err
  · exact post_err
  · exact post_ok ⟨hd, hs, h.1, h.2⟩

theorem collapse_wf {i : StmInfo} {c : Expr} {t f : Obj} (hc : wfE c) (ht : wf t) (hf : wfN f) : Post wf (collapseElifs i c t f) := by
  unfold collapseElifs
  split
  · split
    · rcases hf with hf | hf
      · cases hf
      · exact post_ok ⟨hc, ht, ⟨hf.1, hf.2.1, hf.2.2.1⟩, hf.2.2.2⟩
    · exact post_err
  · exact post_ok ⟨hc, ht, trivial, hf⟩

theorem inBlock_wf {g : List Obj → List Obj} (hg : ∀ l, wfs l → wfs (g l)) {o : Obj} (h : wf o) : wf (inBlock g o) := by
  cases o <;> first | exact hg _ h | exact hg [_] ⟨h, trivial⟩

theorem timed_wf {d : Expr} {s : Option (List Expr)} {b : Obj} (h : wfDE (d, s)) (hb : wf b) : Post wf (mkTimed d s b) := by
  unfold mkTimed
  split
  · exact post_ok ⟨h.2, hb⟩
  · exact post_err
  · exact post_ok ⟨trivial, hb⟩
  · rename_i hn
    exact post_ok ⟨trivial, inBlock_wf (g := fun l => .wait {} [d] :: l) (fun l hl => ⟨⟨h.1.resolve_left hn, trivial⟩, hl⟩) hb⟩

/-- The branches before `default` is taken out. -/
def wfCs : List Branch → Prop
  | [] => True
  | .mk e o :: l => wfOpt e ∧ wf o ∧ wfCs l

theorem wfCs_append : ∀ {l m : List Branch}, wfCs l → wfCs m → wfCs (l ++ m)
  | [], _, _, h => h
  | .mk _ _ :: _, _, h, h' => ⟨h.1, h.2.1, wfCs_append h.2.2 h'⟩

theorem splitCases_wf (msg : Str) : ∀ (l : List Branch) {d : Obj}, wfN d → wfCs l → Post (fun r => wfBs r.1 ∧ wfN r.2) (splitCases msg d l)
  | [], _, hd, _ => by simp only [splitCases]; exact post_ok ⟨trivial, hd⟩
  | .mk e o :: l, d, hd, h => by
    rcases h.1 with rfl | he
    · simp only [splitCases]
      split
      · exact splitCases_wf msg l (.inr h.2.1) h.2.2
      · exact post_err
    · have : splitCases msg d (.mk e o :: l) = (do let (bs, d) ← splitCases msg d l; return (.mk e o :: bs, d)) := by
        cases e <;> first | rfl | (simp only [wfE] at he)
      rw [this]
      exact post_bind (splitCases_wf msg l hd h.2.2) fun _ h1 => post_pure ⟨⟨he, h.2.1, h1.1⟩, h1.2⟩

theorem varAssign_wf {b : Bool} {a : LVal × Exp} (h : fullAssign a) : Post wf (visitVarAssign b a) := by
  unfold visitVarAssign
  exact post_bind (lVal_wf _ h.1) fun _ h1 => post_bind (exp_wf _ h.2) fun _ h2 => assign_wf h1 h2 ⟨.inl rfl, trivial⟩

theorem varAssigns_wf {b : Bool} : ∀ l : List (LVal × Exp), (∀ a ∈ l, fullAssign a) → Post wfs (visitVarAssigns b l)
  | [], _ => by simp only [visitVarAssigns]; exact post_ok trivial
  | a :: l, h => by
    simp only [visitVarAssigns]
    exact post_bind (varAssign_wf (h a (.head _))) fun _ h1 => post_bind (varAssigns_wf l fun v hv => h v (.tail _ hv)) fun _ h2 => post_pure ⟨h1, h2⟩

theorem forVars_wf {t : Expr} (ht : wfE t) {b : Bool} : ∀ l : List (Ident × Exp), (∀ a ∈ l, fullExp a.2) → Post wfs (visitForVars t b l)
  | [], _ => by simp only [visitForVars]; exact post_ok trivial
  | a :: l, h => by
    simp only [visitForVars]
    exact post_bind post_any fun _ _ => post_bind (clone_wf ht) fun _ h1 => post_bind (exp_wf _ (h a (.head _))) fun _ h2 =>
      post_bind (forVars_wf ht l fun v hv => h v (.tail _ hv)) fun _ h3 => post_pure ⟨⟨.inr h1, .inr h2, by simp⟩, h3⟩

theorem forDecl_wf {d : ForDecl} (h : fullForDecl d) : Post wfs (visitForDecl d) := by
  obtain ⟨v, t, l⟩ := d
  unfold visitForDecl
  refine post_bind (dType_wf t h.1) fun _ h1 => ?_
  cases l with
  | nil => exact post_pure trivial
  | cons a l =>
    exact post_bind post_any fun _ _ => post_bind (exp_wf _ (h.2 a (.head _))) fun _ h2 =>
      post_bind (forVars_wf h1 l fun v hv => h.2 v (.tail _ hv)) fun _ h3 => post_pure ⟨⟨.inr h1, .inr h2, by simp⟩, h3⟩

theorem forDecls_wf : ∀ l : List ForDecl, (∀ d ∈ l, fullForDecl d) → Post wfs (visitForDecls l)
  | [], _ => by simp only [visitForDecls]; exact post_ok trivial
  | a :: l, h => by
    simp only [visitForDecls]
    exact post_bind (forDecl_wf (h a (.head _))) fun _ h1 => post_bind (forDecls_wf l fun v hv => h v (.tail _ hv)) fun _ h2 => post_pure (wfs_append h1 h2)

theorem forInit_wf {i : Option ForInit} (h : fullOpt fullForInit i) : Post wfs (visitForInit i) := by
  cases i with
  | none => exact post_ok trivial
  | some i =>
    have h := h i rfl
    cases i with
    | assigns l => exact varAssigns_wf l h
    | decls l => exact forDecls_wf l h

theorem matchItem_wf {m : MatchItem} (h : fullMatchItem m) : Post wf (visitMatchItem m) := by
  cases m with
  | assign a => exact post_bind (opAssign_wf h) fun _ h => post_pure h
  | expr e => exact post_bind (exp_wf e h) fun _ h => post_pure h

theorem forStep_wf : ∀ l : List MatchItem, (∀ m ∈ l, fullMatchItem m) → Post wfs (visitForStep l)
  | [], _ => by simp only [visitForStep]; exact post_ok trivial
  | a :: l, h => by
    simp only [visitForStep]
    exact post_bind (matchItem_wf (h a (.head _))) fun _ h1 => post_bind (forStep_wf l fun v hv => h v (.tail _ hv)) fun _ h2 => post_pure ⟨h1, h2⟩

theorem forCond_wf {e : Option Exp} (h : fullOpt fullExp e) : Post wfE (visitForCond e) := by
  cases e with
  | none => exact post_ok trivial
  | some e => exact exp_wf e (h e rfl)

theorem loopVars_wf : ∀ l : List (Option Ident), Post wfs (visitLoopVars l)
  | [] => by simp only [visitLoopVars]; exact post_ok trivial
  | none :: l => by simp only [visitLoopVars]; exact loopVars_wf l
  | some i :: l => by simp only [visitLoopVars]; exact post_bind (ident_wf i) fun _ h1 => post_bind (loopVars_wf l) fun _ h2 => post_pure ⟨h1, h2⟩

theorem blockDecl_wf {d : BlockDecl} (h : fullBlockDecl d) : Post wfs (visitBlockDecl d) := by
  cases d with
  | data d => exact dataDecl_wf h
  | localparam d => exact post_bind (localparam_wf h) fun _ h => post_pure (wfs_ids h)
  | param d => exact post_bind (paramDecl_wf h) fun _ h => post_pure (wfs_ids h)
  | let_ => exact post_ok trivial

theorem blockDecls_wf : ∀ l : List BlockDecl, (∀ d ∈ l, fullBlockDecl d) → Post wfs (visitBlockDecls l)
  | [], _ => by simp only [visitBlockDecls]; exact post_ok trivial
  | a :: l, h => by
    simp only [visitBlockDecls]
    exact post_bind (blockDecl_wf (h a (.head _))) fun _ h1 => post_bind (blockDecls_wf l fun v hv => h v (.tail _ hv)) fun _ h2 =>
      post_pure (wfs_append h1 h2)

theorem addLabel_wf {l : Option Ident} {o : Obj} (h : wf o) : wf (addLabel l o) := by
  cases l
  · exact h
  · exact (mapInfo_wf _ o).2 h

theorem caseExprs_wf {o : Obj} (ho : wf o) : ∀ l : List Exp, fullExps l → Post wfCs (visitCaseExprs o l)
  | [], _ => by simp only [visitCaseExprs]; exact post_ok trivial
  | e :: l, h => by
    simp only [visitCaseExprs]
    exact post_bind (exp_wf e h.1) fun _ h1 => post_bind (caseExprs_wf ho l h.2) fun _ h2 => post_pure ⟨.inr h1, ho, h2⟩

mutual
theorem stm_wf : ∀ s : Stm, fullStm s → Post wf (visitStm s)
  | .mk _ i, h => by simp only [visitStm]; exact post_bind (stmItem_wf i h) fun _ h => post_pure (addLabel_wf h)
theorem stmN_wf : ∀ s : StmN, fullStmN s → Post wf (visitStmN s)
  | .stm s, h => by simp only [visitStmN]; exact stm_wf s h
  | .semi, _ => by simp only [visitStmN]; exact post_ok trivial
theorem stmNs_wf : ∀ l : List StmN, fullStmNs l → Post wfs (visitStmNs l)
  | [], _ => by simp only [visitStmNs]; exact post_ok trivial
  | s :: l, h => by simp only [visitStmNs]; exact post_bind (stmN_wf s h.1) fun _ h1 => post_bind (stmNs_wf l h.2) fun _ h2 => post_pure ⟨h1, h2⟩
theorem stmItem_wf : ∀ s : StmItem, fullStmItem s → Post wf (visitStmItem s)
  | .blocking d c s, h => by
    simp only [visitStmItem]
    exact post_bind (lVal_wf d h.1) fun _ h1 => post_bind (exp_wf s h.2.2) fun _ h2 => post_bind (delayOrEvent_wf h.2.1) fun _ h3 => assign_wf h1 h2 h3
  | .arrayNew d, _ => by simp only [visitStmItem]; exact post_bind post_any fun _ _ => post_pure trivial
  | .classNew, _ => by simp only [visitStmItem]; exact post_ok trivial
  | .opAssign a, h => by simp only [visitStmItem]; exact post_bind (opAssign_wf h) fun _ h => post_pure h
  | .nonblocking d c s, h => by
    simp only [visitStmItem]
    refine post_bind (lVal_wf d h.1) fun _ h1 => post_bind (exp_wf s h.2.2) fun _ h2 => ?_
    cases c with
    | none => exact assign_wf h1 h2 ⟨.inl rfl, trivial⟩
    | some c => exact post_bind (delayOrEvent_wf (h.2.1 c rfl)) fun _ h3 => assign_wf h1 h2 h3
  | .unsupported _, _ => by simp only [visitStmItem]; exact post_ok trivial
  | .incDec p i l, h => by simp only [visitStmItem]; exact post_bind (exp_wf (.incDec p i l) h) fun _ h => post_pure h
  | .prim p, h => by simp only [visitStmItem]; exact post_bind (prim_wf p h) fun _ h => post_pure h
  | .caseInside _ e _, h => by simp only [visitStmItem]; exact post_bind (exp_wf e h.1) fun _ h1 => post_pure ⟨h1, trivial, .inl rfl⟩
  | .caseMatches _ _ e _, h => by simp only [visitStmItem]; exact post_bind (exp_wf e h.1) fun _ h1 => post_pure ⟨h1, trivial, .inl rfl⟩
  | .case _ _ e l, h => by
    simp only [visitStmItem]
    exact post_bind (exp_wf e h.1) fun _ h1 => post_bind (caseItems_wf l h.2) fun _ h2 => post_bind (splitCases_wf _ _ (.inl rfl) h2) fun _ h3 =>
      post_pure ⟨h1, h3.1, h3.2⟩
  | .if_ _ c t, h => by
    simp only [visitStmItem]
    exact post_bind (condPred_wf h.1) fun _ h1 => post_bind (stmN_wf t h.2) fun _ h2 => collapse_wf h1 h2 (.inl rfl)
  | .ifElse _ c t f, h => by
    simp only [visitStmItem]
    exact post_bind (condPred_wf h.1) fun _ h1 => post_bind (stmN_wf t h.2.1) fun _ h2 => post_bind (stmN_wf f h.2.2) fun _ h3 =>
      collapse_wf h1 h2 (.inr h3)
  | .voidCall e, h => by simp only [visitStmItem]; exact post_bind (exp_wf e h) fun _ h => post_pure (mkBin_wf (by exact trivial) h)
  | .forever b, h => by simp only [visitStmItem]; exact post_bind (stmN_wf b h) fun _ h => post_pure ⟨trivial, h⟩
  | .repeat_ e b, h => by simp only [visitStmItem]; exact post_bind (stmN_wf b h.2) fun _ h1 => post_bind (exp_wf e h.1) fun _ h2 => post_pure ⟨h2, h1⟩
  | .while_ e b, h => by simp only [visitStmItem]; exact post_bind (stmN_wf b h.2) fun _ h1 => post_bind (exp_wf e h.1) fun _ h2 => post_pure ⟨h2, h1⟩
  | .doWhile _ _, h => by simp only [fullStmItem] at h
  | .for_ i c s b, h => by
    simp only [visitStmItem]
    exact post_bind (stmN_wf b h.2.2.2) fun _ h1 => post_bind (forInit_wf h.1) fun _ h2 => post_bind (forCond_wf h.2.1) fun _ h3 =>
      post_bind (forStep_wf s h.2.2.1) fun _ h4 => post_pure ⟨h2, h3, h4, h1⟩
  | .foreach c vs b, h => by
    simp only [visitStmItem]
    exact post_bind (stm_wf b h.2) fun _ h1 => post_bind (hSel_wf c h.1) fun _ h2 => post_bind (loopVars_wf vs) fun _ h3 => post_pure ⟨h3, h2, h1⟩
  | .return_ none, _ => by simp only [visitStmItem]; exact post_ok (.inl rfl)
  | .return_ (some e), h => by simp only [visitStmItem]; exact post_bind (exp_wf e (h e rfl)) fun _ h => post_pure (.inr h)
  | .break_, _ => by simp only [visitStmItem]; exact post_ok trivial
  | .continue_, _ => by simp only [visitStmItem]; exact post_ok trivial
  | .par _ ds l _ _, h => by
    simp only [visitStmItem]
    exact post_bind (blockDecls_wf ds h.1) fun _ h1 => post_bind (stmNs_wf l h.2) fun _ h2 => post_bind post_any fun _ _ => post_pure (wfs_append h1 h2)
  | .timing t b, h => by
    simp only [visitStmItem]; exact post_bind (timingCtl_wf h.1) fun _ h1 => post_bind (stmN_wf b h.2) fun _ h2 => timed_wf h1 h2
  | .seq _ ds l _, h => by
    simp only [visitStmItem]
    exact post_bind (blockDecls_wf ds h.1) fun _ h1 => post_bind (stmNs_wf l h.2) fun _ h2 => post_bind post_any fun _ _ => post_pure (wfs_append h1 h2)
theorem caseItem_wf : ∀ i : CaseItem, fullCaseItem i → Post wfCs (visitCaseItem i)
  | .dflt s, h => by simp only [visitCaseItem]; exact post_bind (stmN_wf s h) fun _ h => post_pure ⟨.inl rfl, h, trivial⟩
  | .exprs l s, h => by simp only [visitCaseItem]; exact post_bind (stmN_wf s h.2) fun _ h1 => caseExprs_wf h1 l h.1
theorem caseItems_wf : ∀ l : List CaseItem, fullCaseItems l → Post wfCs (visitCaseItems l)
  | [], _ => by simp only [visitCaseItems]; exact post_ok trivial
  | i :: l, h => by
    simp only [visitCaseItems]; exact post_bind (caseItem_wf i h.1) fun _ h1 => post_bind (caseItems_wf l h.2) fun _ h2 => post_pure (wfCs_append h1 h2)
end

theorem setTrigger_wf {t : Trigger} {o : Obj} (h : wf o) : wf (setTrigger t o) := by
  cases o <;> first | exact h | exact ⟨trivial, h⟩

theorem always_wf {k : AlwaysKw} {s : Stm} (h : fullStm s) : Post wf (visitAlways k s) := by
  unfold visitAlways
  refine post_bind (stm_wf s h) fun _ h1 => ?_
  cases k <;> first | exact post_pure h1 | exact post_pure (setTrigger_wf h1)

theorem initial_wf {s : StmN} (h : fullStmN s) : Post wf (visitInitial s) := by
  unfold visitInitial
  exact post_bind (stmN_wf s h) fun _ h1 => post_pure ⟨trivial, inBlock_wf (g := fun l => l ++ [.wait {} []]) (fun _ hl => wfs_append hl (m := [.wait {} []]) ⟨trivial, trivial⟩) h1⟩

theorem elabTask_wf {t : ElabTask} (h : fullArgs t.args) : Post wf (visitElabTask t) := by
  unfold visitElabTask
  refine post_bind (args_wf true _ h) fun _ h1 => post_pure (mkCall_wf (by exact trivial) (wfEs_append ?_ h1))
  split
  · exact trivial
  · exact ⟨trivial, trivial⟩

/-! ## Modules -/

theorem namedConns_wf : ∀ l : List NamedConn, (∀ c ∈ l, fullNamedConn c) → Post wfEs (visitNamedConns l)
  | [], _ => by simp only [visitNamedConns]; exact post_ok trivial
  | c :: l, h => by
    simp only [visitNamedConns]
    refine post_bind (P := wfE) ?_ fun _ h1 => post_bind (namedConns_wf l fun v hv => h v (.tail _ hv)) fun _ h2 => post_pure ⟨h1, h2⟩
    have h := h c (.head _)
    cases c <;> simp only [visitNamedConn]
    · exact post_ok ⟨trivial, trivial, trivial⟩
    · exact post_bind (ident_wf _) fun _ h => post_pure (mkBin_wf h trivial)
    · exact post_bind (ident_wf _) fun _ h => post_pure (mkBin_wf h trivial)
    · exact post_bind (ident_wf _) fun _ h1 => post_bind (exp_wf _ h) fun _ h2 => post_pure (mkBin_wf h1 h2)

theorem orderedConns_wf : ∀ l : List (Option Exp), (∀ c ∈ l, fullOpt fullExp c) → Post wfEs (visitOrderedConns l)
  | [], _ => by simp only [visitOrderedConns]; exact post_ok trivial
  | none :: l, h => by
    simp only [visitOrderedConns]; exact post_bind (orderedConns_wf l fun v hv => h v (.tail _ hv)) fun _ h2 => post_pure ⟨trivial, h2⟩
  | some e :: l, h => by
    simp only [visitOrderedConns]
    exact post_bind (exp_wf e (h _ (.head _) e rfl)) fun _ h1 => post_bind (orderedConns_wf l fun v hv => h v (.tail _ hv)) fun _ h2 => post_pure ⟨h1, h2⟩

theorem hierInst_wf {m : Str} {g : List Expr} (hg : wfEs g) {i : HierInst} (h : fullHierInst i) : Post wf (visitHierInst m g i) := by
  unfold visitHierInst
  refine post_bind (ident_wf _) fun _ h1 => post_bind (unpackedDims_wf _ h1 h.1) fun _ h2 => post_bind (P := wfEs) ?_ fun _ h3 =>
    post_pure ⟨h2, trivial, hg, h3⟩
  have h := h.2
  revert h
  cases i.conns with
  | ordered l => exact orderedConns_wf l
  | named l => exact namedConns_wf l

theorem hierInstsRest_wf {m : Str} {g : List Expr} (hg : wfEs g) : ∀ l : List HierInst, (∀ i ∈ l, fullHierInst i) → Post wfs (visitHierInstsRest m g l)
  | [], _ => by simp only [visitHierInstsRest]; exact post_ok trivial
  | i :: l, h => by
    simp only [visitHierInstsRest]
    exact post_bind (cloneList_wf hg) fun _ h0 => post_bind (hierInst_wf h0 (h i (.head _))) fun _ h1 =>
      post_bind (hierInstsRest_wf hg l fun v hv => h v (.tail _ hv)) fun _ h2 => post_pure ⟨h1, h2⟩

theorem modInst_wf {m : ModInst} (h : fullModInst m) : Post wfs (visitModInst m) := by
  obtain ⟨n, p, l⟩ := m
  unfold visitModInst
  refine post_bind (P := wfEs) ?_ fun _ hg => ?_
  · have h := h.1
    cases p with
    | none => exact post_ok trivial
    | ordered l => exact pExprs_wf l h
    | named l => exact namedPs_wf l h
  · cases l with
    | nil => exact post_pure trivial
    | cons i l =>
      exact post_bind (hierInst_wf hg (h.2 i (.head _))) fun _ h1 => post_bind (hierInstsRest_wf hg l fun v hv => h.2 v (.tail _ hv)) fun _ h2 =>
        post_pure ⟨h1, h2⟩

theorem nOutInsts_wf {b : Bool} : ∀ l : List NOutInst, (∀ i ∈ l, fullGateName i.name ∧ fullLVals i.outs ∧ fullExp i.inp) →
    Post wfs (visitNOutInsts b l)
  | [], _ => by simp only [visitNOutInsts]; exact post_ok trivial
  | i :: l, h => by
    simp only [visitNOutInsts]
    refine post_bind (P := wf) ?_ fun _ h1 => post_bind (nOutInsts_wf l fun v hv => h v (.tail _ hv)) fun _ h2 => post_pure ⟨h1, h2⟩
    have h := h i (.head _)
    unfold visitNOutInst
    refine post_bind (lVals_wf _ h.2.1) fun _ h1 => post_bind (exp_wf _ h.2.2) fun _ h2 => Vhdl.mkAssign_wf (concatOpt_wf h1.1) (.inr ?_)
    split
    · exact mkUn_wf h2
    · exact h2

theorem nInInsts_wf {g : NGate} : ∀ l : List NInInst, (∀ i ∈ l, fullGateName i.name ∧ fullLVal i.out ∧ fullExps i.ins) →
    Post wfs (visitNInInsts g l)
  | [], _ => by simp only [visitNInInsts]; exact post_ok trivial
  | i :: l, h => by
    simp only [visitNInInsts]
    refine post_bind (P := wf) ?_ fun _ h1 => post_bind (nInInsts_wf l fun v hv => h v (.tail _ hv)) fun _ h2 => post_pure ⟨h1, h2⟩
    have h := h i (.head _)
    unfold visitNInInst
    refine post_bind (lVal_wf _ h.2.1) fun _ h1 => post_bind (exps_wf _ h.2.2) fun _ h2 => post_bind (P := wfE) ?_ fun _ h3 =>
      post_pure ⟨h3, trivial, trivial, h1, h2.1⟩
    split
    · exact post_ok trivial
    · exact ident_wf _

theorem gate_wf {g : Gate} (h : fullGate g) : Post wfs (visitGate g) := by
  cases g with
  | nOut b l => exact nOutInsts_wf l h
  | nIn g l => exact nInInsts_wf l h
  | other => exact post_ok trivial

theorem updPort_all {P : IdDef → Prop} {n : Str} {f : IdDef → IdDef} (hf : ∀ d, P d → P (f d)) :
    ∀ {l r : List IdDef}, (∀ d ∈ l, P d) → updPort n f l = some r → ∀ d ∈ r, P d
  | [], _, _, h => by simp [updPort] at h
  | p :: l, r, hl, h => by
    simp only [updPort] at h
    split at h
    · cases h
      intro d hd
      rcases List.mem_cons.1 hd with rfl | hd
      · exact hf _ (hl _ (.head _))
      · exact hl d (.tail _ hd)
    · split at h
      · cases h
      · rename_i l' hl'
        cases h
        intro d hd
        rcases List.mem_cons.1 hd with rfl | hd
        · exact hl _ (.head _)
        · exact updPort_all hf (fun d hd => hl d (.tail _ hd)) hl' d hd

theorem idDef_wf {o : Obj} (h : wf o) {d : IdDef} (hd : o.idDef? = some d) : wfTV d := by
  cases o <;> simp only [Obj.idDef?, Option.some.injEq, reduceCtorEq] at hd <;> subst hd
  · exact ⟨h.1, h.2.1⟩
  · exact ⟨.inl rfl, .inl rfl⟩
  · exact ⟨.inr trivial, .inr trivial⟩

theorem mergeTfObjs_wf : ∀ (l : List Obj) {ps : List IdDef}, wfIds ps → wfs l → wfs (mergeTfObjs ps l).1 ∧ wfIds (mergeTfObjs ps l).2
  | [], _, hp, _ => ⟨trivial, hp⟩
  | o :: l, ps, hp, h => by
    simp only [mergeTfObjs]
    split
    · exact ⟨⟨h.1, (mergeTfObjs_wf l hp h.2).1⟩, (mergeTfObjs_wf l hp h.2).2⟩
    · rename_i d hd
      split
      · exact ⟨⟨h.1, (mergeTfObjs_wf l hp h.2).1⟩, (mergeTfObjs_wf l hp h.2).2⟩
      · rename_i ps' hps
        have hd := idDef_wf h.1 hd
        exact mergeTfObjs_wf l (updPort_all (P := wfId) (f := fun p => { p with type := d.type, value := d.value }) (fun p hp => ⟨hd.1, hd.2, hp.2.2⟩) hp hps) h.2

theorem tfItems_wf : ∀ (l : List TfItem) {ps : List IdDef}, wfIds ps → (∀ i ∈ l, fullTfItem i) → Post (fun r => wfs r.1 ∧ wfIds r.2) (visitTfItems ps l)
  | [], _, hp, _ => by simp only [visitTfItems]; exact post_ok ⟨trivial, hp⟩
  | .block d :: l, ps, hp, h => by
    simp only [visitTfItems]
    refine post_bind (blockDecl_wf (h _ (.head _))) fun os h1 => ?_
    have hm := mergeTfObjs_wf os hp h1
    exact post_bind (tfItems_wf l hm.2 fun v hv => h v (.tail _ hv)) fun _ h2 => post_pure ⟨wfs_append hm.1 h2.1, h2.2⟩
  | .port d :: l, ps, hp, h => by
    simp only [visitTfItems]
    exact post_bind (tfPortDecl_wf (h _ (.head _))) fun _ h1 => tfItems_wf l (wfIds_append hp h1) fun v hv => h v (.tail _ hv)

theorem tfDecl_wf {r : Expr} (hr : wfE r) {s t : Bool} {d : TfDecl} (h : fullTfDecl d) : Post wf (visitTfDecl r s t d) := by
  unfold visitTfDecl
  refine post_bind post_any fun _ _ => post_bind (P := fun r => wfs r.1 ∧ wfIds r.2) ?_ fun _ h1 => post_bind (stmNs_wf _ h.2) fun _ h2 =>
    post_pure ⟨fun d hd => h1.2 d hd, .inr hr, wfs_append h1.1 h2⟩
  have h := h.1
  revert h
  cases d.head with
  | items l => exact tfItems_wf l wfIds_nil
  | ports l ds =>
    intro h
    exact post_bind (tfPorts_wf l h.1) fun _ h1 => post_bind (blockDecls_wf ds h.2) fun _ h2 => post_pure ⟨h2, h1⟩

theorem tfDef_wf {d : TfDef} (h : fullTfDef d) : Post wf (visitTfDef d) := by
  cases d with
  | task l d => exact tfDecl_wf (by exact trivial) h
  | function l r d =>
    simp only [visitTfDef]
    refine post_bind (P := wfE) ?_ fun _ h1 => tfDecl_wf h1 h.2
    have h := h.1
    cases r with
    | none => exact post_ok trivial
    | void => exact post_ok trivial
    | type t => exact dType_wf t h
    | impl t => exact implType_wf (.inl rfl) (fullOpt_some h)

theorem genvars_wf : ∀ l : List Ident, Post wfs (visitGenvars l)
  | [] => by simp only [visitGenvars]; exact post_ok trivial
  | i :: l => by
    simp only [visitGenvars]
    exact post_bind post_any fun _ _ => post_bind (genvars_wf l) fun _ h => post_pure ⟨⟨.inr trivial, .inl rfl, by simp⟩, h⟩

theorem genInit_wf {i : GenInit} (h : fullExp i.value) : Post wf (visitGenInit i) := by
  unfold visitGenInit
  refine post_bind (exp_wf _ h) fun _ h1 => ?_
  split
  · exact post_bind post_any fun _ _ => post_pure ⟨.inr trivial, .inr h1, by simp⟩
  · exact post_bind (ident_wf _) fun _ h2 => assign_wf h2 h1 ⟨.inl rfl, trivial⟩

theorem genIter_wf {i : GenIter} (h : fullGenIter i) : Post wf (visitGenIter i) := by
  cases i <;> simp only [visitGenIter]
  · exact post_bind (ident_wf _) fun _ h1 => post_bind (exp_wf _ h) fun _ h2 => post_pure (mkBin_wf h1 h2)
  · exact post_bind (ident_wf _) fun _ h1 => post_pure (mkUn_wf h1)

theorem popBlock_wf {l : List Obj} (h : wfs l) : wf (popBlock l) := by
  unfold popBlock
  split
  · exact h.1
  · exact h

theorem markPreproc_wf : ∀ {l : List Obj}, wfs l → wfs (l.map markPreproc)
  | [], _ => trivial
  | o :: _, h => ⟨(mapInfo_wf _ o).2 h.1, markPreproc_wf h.2⟩

theorem oneObj_wf {l : List Obj} (h : wfs l) : Post wf (oneObj l) := by
  unfold oneObj
  split
  · exact post_ok h.1
  · exact post_err

mutual
theorem genItem_wf : ∀ i : GenItem, fullGenItem i → Post (fun r => wfs r.1 ∧ wfIds r.2) (visitGenItem i)
  | .ignored _, _ => by simp only [visitGenItem]; exact post_ok ⟨trivial, wfIds_nil⟩
  | .gate g, h => by simp only [visitGenItem]; exact post_bind (gate_wf h) fun _ h => post_pure ⟨h, wfIds_nil⟩
  | .inst m, h => by simp only [visitGenItem]; exact post_bind (modInst_wf h) fun _ h => post_pure ⟨h, wfIds_nil⟩
  | .localparam d, h => by simp only [visitGenItem]; exact post_bind (localparam_wf h) fun _ h => post_pure ⟨wfs_ids h, wfIds_nil⟩
  | .param d, h => by simp only [visitGenItem]; exact post_bind (paramDecl_wf h) fun _ h => post_pure ⟨trivial, h⟩
  | .semi, _ => by simp only [visitGenItem]; exact post_ok ⟨⟨trivial, trivial⟩, wfIds_nil⟩
  | .net d, h => by simp only [visitGenItem]; exact post_bind (netDecl_wf h) fun _ h => post_pure ⟨wfs_ids h, wfIds_nil⟩
  | .data d, h => by simp only [visitGenItem]; exact post_bind (dataDecl_wf h) fun _ h => post_pure ⟨h, wfIds_nil⟩
  | .tf d, h => by simp only [visitGenItem]; exact post_bind (tfDef_wf h) fun _ h => post_pure ⟨⟨h, trivial⟩, wfIds_nil⟩
  | .genvar l, _ => by simp only [visitGenItem]; exact post_bind (genvars_wf l) fun _ h => post_pure ⟨h, wfIds_nil⟩
  | .assign l, h => by simp only [visitGenItem]; exact post_bind (varAssigns_wf l h) fun _ h => post_pure ⟨h, wfIds_nil⟩
  | .initial s, h => by simp only [visitGenItem]; exact post_bind (initial_wf h) fun _ h => post_pure ⟨⟨h, trivial⟩, wfIds_nil⟩
  | .always k s, h => by simp only [visitGenItem]; exact post_bind (always_wf h) fun _ h => post_pure ⟨⟨h, trivial⟩, wfIds_nil⟩
  | .loop i c s b, h => by
    simp only [visitGenItem]
    exact post_bind (genInit_wf h.1) fun _ h1 => post_bind (exp_wf c h.2.1) fun _ h2 => post_bind (genIter_wf h.2.2.1) fun _ h3 =>
      post_bind (gItem_wf b h.2.2.2) fun _ h4 => post_pure ⟨⟨⟨⟨h1, trivial⟩, h2, h3, popBlock_wf h4⟩, trivial⟩, wfIds_nil⟩
  | .if_ c t, h => by
    simp only [visitGenItem]
    exact post_bind (exp_wf c h.1) fun _ h1 => post_bind (gItem_wf t h.2) fun _ h2 => post_bind (collapse_wf h1 (popBlock_wf h2) (.inl rfl)) fun _ h3 =>
      post_pure ⟨⟨h3, trivial⟩, wfIds_nil⟩
  | .ifElse c t f, h => by
    simp only [visitGenItem]
    exact post_bind (exp_wf c h.1) fun _ h1 => post_bind (gItem_wf t h.2.1) fun _ h2 => post_bind (gItem_wf f h.2.2) fun _ h2' =>
      post_bind (collapse_wf h1 (popBlock_wf h2) (.inr (popBlock_wf h2'))) fun _ h3 => post_pure ⟨⟨h3, trivial⟩, wfIds_nil⟩
  | .case e l, h => by
    simp only [visitGenItem]
    exact post_bind (exp_wf e h.1) fun _ h1 => post_bind (caseGItems_wf l h.2) fun _ h2 => post_bind (splitCases_wf _ _ (.inl rfl) h2) fun _ h3 =>
      post_pure ⟨⟨⟨h1, h3.1, h3.2⟩, trivial⟩, wfIds_nil⟩
  | .elab t, h => by simp only [visitGenItem]; exact post_bind (elabTask_wf h) fun _ h => post_pure ⟨⟨h, trivial⟩, wfIds_nil⟩
theorem gItem_wf : ∀ g : GItem, fullGItem g → Post wfs (visitGItem g)
  | .item i, h => by simp only [visitGItem]; exact post_bind (genItem_wf i h) fun _ h => post_pure h.1
  | .externTf, _ => by simp only [visitGItem]; exact post_ok trivial
  | .rand, _ => by simp only [visitGItem]; exact post_ok trivial
  | .region l, h => by simp only [visitGItem]; exact post_bind (gItems_wf l h) fun _ h => post_pure (markPreproc_wf h)
  | .block _ _ l _, h => by
    simp only [visitGItem]; exact post_bind (gItems_wf l h) fun _ h => post_bind post_any fun _ _ => post_pure ⟨h, trivial⟩
theorem gItems_wf : ∀ l : List GItem, fullGItems l → Post wfs (visitGItems l)
  | [], _ => by simp only [visitGItems]; exact post_ok trivial
  | g :: l, h => by simp only [visitGItems]; exact post_bind (gItem_wf g h.1) fun _ h1 => post_bind (gItems_wf l h.2) fun _ h2 => post_pure (wfs_append h1 h2)
theorem caseGItem_wf : ∀ i : CaseGItem, fullCaseGItem i → Post wfCs (visitCaseGItem i)
  | .dflt g, h => by
    simp only [visitCaseGItem]; exact post_bind (gItem_wf g h) fun _ h => post_bind (oneObj_wf h) fun _ h => post_pure ⟨.inl rfl, h, trivial⟩
  | .exprs l g, h => by
    simp only [visitCaseGItem]; exact post_bind (gItem_wf g h.2) fun _ h1 => post_bind (oneObj_wf h1) fun _ h2 => caseExprs_wf h2 l h.1
theorem caseGItems_wf : ∀ l : List CaseGItem, fullCaseGItems l → Post wfCs (visitCaseGItems l)
  | [], _ => by simp only [visitCaseGItems]; exact post_ok trivial
  | i :: l, h => by
    simp only [visitCaseGItems]; exact post_bind (caseGItem_wf i h.1) fun _ h1 => post_bind (caseGItems_wf l h.2) fun _ h2 => post_pure (wfCs_append h1 h2)
end

theorem addPort_all {P : IdDef → Prop} {d : IdDef} (hd : P d) : ∀ {l : List IdDef}, (∀ p ∈ l, P p) → ∀ p ∈ addPort d l, P p
  | [], _ => by simpa [addPort] using hd
  | [p], h => by
    have := h p (.head _)
    simp only [addPort]
    split <;> simp [hd, this]
  | p :: q :: l, h => by
    simp only [addPort, List.mem_cons, forall_eq_or_imp]
    refine ⟨h p (.head _), ?_⟩
    simpa using addPort_all (l := q :: l) hd fun x hx => h x (.tail _ hx)

theorem updPortDecl_wf {d p : IdDef} (hd : wfTV d) (hp : wfTV p) : wfTV (updPortDecl d p) := by
  refine ⟨hd.1, ?_⟩
  unfold updPortDecl
  dsimp only
  split
  · exact hp.2
  · exact hd.2

theorem updPortVar_wf {d p : IdDef} (hd : wfTV d) (hp : wfTV p) : wfTV (updPortVar d p) := by
  refine ⟨hd.1, ?_⟩
  unfold updPortVar
  dsimp only
  split
  · exact hp.2
  · exact hd.2

theorem applyPortDecl_wf {ps : List IdDef} (hp : ∀ p ∈ ps, wfTV p) {d : IdDef} (hd : wfTV d) : Post (fun r => ∀ p ∈ r, wfTV p) (applyPortDecl ps d) := by
  unfold applyPortDecl
  split
  · exact post_ok (addPort_all hd hp)
  · split
    · exact post_err
    · split
      · rename_i h
        exact post_ok (updPort_all (fun p hp => updPortDecl_wf hd hp) hp h)
      · exact post_ok hp

theorem applyPortDecls_wf : ∀ (l : List IdDef) {ps : List IdDef}, (∀ p ∈ ps, wfTV p) → (∀ d ∈ l, wfTV d) →
    Post (fun r => ∀ p ∈ r, wfTV p) (applyPortDecls ps l)
  | [], _, hp, _ => by simp only [applyPortDecls]; exact post_ok hp
  | d :: l, _, hp, h => by
    simp only [applyPortDecls]
    exact post_bind (applyPortDecl_wf hp (h d (.head _))) fun _ h1 => applyPortDecls_wf l h1 fun d hd => h d (.tail _ hd)

theorem consume_wf : ∀ (l : List Obj) {ps : List IdDef}, (∀ p ∈ ps, wfTV p) → wfs l →
    wfs (consumePortVars ps l).1 ∧ ∀ p ∈ (consumePortVars ps l).2, wfTV p
  | [], _, hp, _ => ⟨trivial, hp⟩
  | o :: l, ps, hp, h => by
    simp only [consumePortVars]
    split
    · exact ⟨⟨h.1, (consume_wf l hp h.2).1⟩, (consume_wf l hp h.2).2⟩
    · rename_i d hd
      split
      · exact ⟨⟨h.1, (consume_wf l hp h.2).1⟩, (consume_wf l hp h.2).2⟩
      · rename_i ps' hps
        have hd := idDef_wf h.1 hd
        exact consume_wf l (updPort_all (fun p hp => updPortVar_wf hd hp) hp hps) h.2

theorem defaultType_wf {d : IdDef} (h : wfTV d) : wfTV (defaultType d) := by
  refine ⟨?_, h.2⟩
  unfold defaultType
  dsimp only
  split
  · exact .inr trivial
  · exact h.1

theorem finishPorts_wf : ∀ (l : List IdDef) {D : Dir}, D ≠ .UNKNOWN → (∀ p ∈ l, wfTV p) → wfIds (finishPorts D l)
  | [], _, _, _ => wfIds_nil
  | p :: l, D, hD, h => by
    simp only [finishPorts]
    have hp := defaultType_wf (h p (.head _))
    split
    · exact wfIds_cons ⟨hp.1, hp.2, hD⟩ (finishPorts_wf l hD fun x hx => h x (.tail _ hx))
    · rename_i hu
      exact wfIds_cons ⟨hp.1, hp.2, hu⟩ (finishPorts_wf l hu fun x hx => h x (.tail _ hx))

theorem hdrPorts_wf {ps : HdrPorts} (h : fullHdrPorts ps) :
    Post (fun r => (∀ p ∈ r, wfTV p) ∧ (firstDir ps → ∀ p ∈ r, p.dir ≠ .UNKNOWN)) (visitHdrPorts ps) := by
  cases ps with
  | none => exact post_ok (by simp)
  | star => exact post_ok (by simpa using ⟨.inr trivial, .inl rfl⟩)
  | list l =>
    cases l with
    | nonansi l => exact post_mono (nonansiPorts_wf l h) fun _ h => ⟨fun p hp => (h p hp).1, fun _ p hp => (h p hp).2⟩
    | ansi l =>
      refine post_mono (ansiPorts_wf l (.inl rfl) h) fun _ h => ⟨h.1, fun hd => h.2 (.inr ?_)⟩
      rintro p hp
      cases l with
      | nil => cases hp
      | cons q l =>
        cases hp
        cases p with
        | decl hh n ds v => cases hh <;> first | rfl | exact hd.elim
        | expl d n e => cases d <;> first | rfl | exact hd.elim

theorem wfIds_default {l : List IdDef} (h : wfIds l) : wfIds (l.map defaultType) :=
  wfIds_map (fun _ hd => wfTV_id (defaultType_wf ⟨hd.1, hd.2.1⟩) hd.2.2) h

/-- What the visitor of a module has collected. -/
def wfState (st : ModState) : Prop := wfIds st.generics ∧ (∀ p ∈ st.ports, wfTV p) ∧ wfs st.objs

mutual
theorem mod_wf : ∀ m : Mod, fullMod m → Post wf (visitMod m)
  | .mk ext hd ps l, h => by
    simp only [visitMod]
    refine post_bind (P := wfIds) ?_ fun gs hg => post_bind (hdrPorts_wf h.2.1) fun qs hq => ?_
    · have h := h.1
      revert h
      cases hd.params with
      | none => exact fun _ => post_ok wfIds_nil
      | some p => exact fun h => paramPorts_wf (h p rfl)
    · split
      · rename_i he
        exact post_pure ⟨wfIds_default hg, wfIds_default fun d hd => wfTV_id (hq.1 d hd) (hq.2 (h.2.2.1 he) d hd), trivial⟩
      · refine post_bind (modItems_wf l h.2.2.2 _ ⟨hg, hq.1, trivial⟩) fun st hst => post_pure ?_
        have hc := consume_wf st.objs hst.2.1 hst.2.2
        exact ⟨.inr trivial, .inr ⟨wfIds_default hst.1, finishPorts_wf _ (by simp) hc.2, trivial⟩, hc.1⟩
theorem modItems_wf : ∀ l : List ModItem, fullModItems l → ∀ st, wfState st → Post wfState (visitModItems st l)
  | [], _, _, hs => by simp only [visitModItems]; exact post_ok hs
  | i :: l, h, st, hs => by simp only [visitModItems]; exact post_bind (modItem_wf i h.1 st hs) fun st hs => modItems_wf l h.2 st hs
theorem modItem_wf : ∀ i : ModItem, fullModItem i → ∀ st, wfState st → Post wfState (visitModItem st i)
  | .region l, h, st, hs => by
    simp only [visitModItem]; exact post_bind (gItem_wf (.region l) h) fun _ h => post_pure ⟨hs.1, hs.2.1, wfs_append hs.2.2 h⟩
  | .item i, h, st, hs => by
    simp only [visitModItem]; exact post_bind (genItem_wf i h) fun _ h => post_pure ⟨wfIds_append hs.1 h.2, hs.2.1, wfs_append hs.2.2 h.1⟩
  | .module_ m, h, st, hs => by
    simp only [visitModItem]; exact post_bind (mod_wf m h) fun _ h => post_pure ⟨hs.1, hs.2.1, wfs_append hs.2.2 ⟨h, trivial⟩⟩
  | .port d, h, st, hs => by
    simp only [visitModItem]
    exact post_bind (nonansiDecl_wf h) fun _ h1 => post_bind (applyPortDecls_wf _ hs.2.1 fun d hd => ⟨(h1 d hd).1, (h1 d hd).2.1⟩) fun _ h2 =>
      post_pure ⟨hs.1, h2, hs.2.2⟩
  | .other, _, _, hs => by simp only [visitModItem]; exact post_ok hs
end

theorem source_wf : ∀ l : List Desc, (∀ d ∈ l, fullDesc d) → Post wfs (visitSource l)
  | [], _ => by simp only [visitSource]; exact post_ok trivial
  | .module_ m :: l, h => by
    simp only [visitSource]
    exact post_bind (mod_wf m (h _ (.head _))) fun _ h1 => post_bind (source_wf l fun d hd => h d (.tail _ hd)) fun _ h2 => post_pure ⟨h1, h2⟩
  | .other :: l, h => by simp only [visitSource]; exact source_wf l fun d hd => h d (.tail _ hd)

end Verif.Sv
