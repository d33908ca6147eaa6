import Verif.Sv.Decl
/-!
# Copies of what the SystemVerilog expression visitors build

The visitors build no type definitions, and positions are left out of the model; so a copy of such an expression is the expression.
-/
namespace Verif.Sv
open Verif

mutual
/-- No positions and no type definitions. -/
def plain : Expr → Bool
  | .null => true
  | .id p _ => p.isNone
  | .int p _ => p.isNone
  | .float p _ => p.isNone
  | .str p _ => p.isNone
  | .symb p _ => p.isNone
  | .notImpl p => p.isNone
  | .arr p l => p.isNone && plains l
  | .op p _ l => p.isNone && plains l
  | _ => false
def plains : List Expr → Bool
  | [] => true
  | e :: l => plain e && plains l
end

mutual
theorem plain_clone : ∀ e e' : Expr, plain e = true → e.clone = .ok e' → e' = e
  | .null, _, _, h => by simp [Expr.clone] at h
  | .id .., _, _, h | .int .., _, _, h | .float .., _, _, h | .str .., _, _, h => by
    simp only [Expr.clone, Except.ok.injEq] at h; exact h.symm
  | .symb p _, _, hp, h | .notImpl p, _, hp, h => by
    simp only [Expr.clone, Except.ok.injEq] at h
    simp only [plain, Option.isNone_iff_eq_none] at hp
    rw [← h, hp]
  | .arr p l, _, hp, h | .op p _ l, _, hp, h => by
    simp only [plain, Bool.and_eq_true, Option.isNone_iff_eq_none] at hp
    simp only [Expr.clone, bind, Except.bind] at h
    split at h
    · cases h
    · rename_i l' hl
      rw [← Except.ok.inj h, plains_clone l l' hp.2 hl, hp.1]
  | .enumDef .., _, hp, _ | .physDef .., _, hp, _ | .classDef .., _, hp, _ => by simp [plain] at hp
theorem plains_clone : ∀ l l' : List Expr, plains l = true → cloneList l = .ok l' → l' = l
  | [], _, _, h => by simp only [cloneList, Except.ok.injEq] at h; exact h.symm
  | e :: l, _, hp, h => by
    simp only [plains, Bool.and_eq_true] at hp
    simp only [cloneList, bind, Except.bind] at h
    split at h
    · cases h
    · rename_i e' he
      split at h
      · cases h
      · rename_i l' hl
        rw [← Except.ok.inj h, plain_clone e e' hp.1 he, plains_clone l l' hp.2 hl]
end

theorem bind_ok {α β : Type} {x : Except Exc α} {f : α → Except Exc β} {r : β} :
    (x >>= f) = .ok r ↔ ∃ a, x = .ok a ∧ f a = .ok r := by
  cases x with
  | error e => simp [bind, Except.bind]
  | ok a => simp [bind, Except.bind]

theorem pure_ok {α : Type} {a r : α} : (pure a : Except Exc α) = .ok r ↔ a = r := by
  simp [pure, Except.pure]

theorem plains_append (a b : List Expr) : plains (a ++ b) = (plains a && plains b) := by
  induction a with
  | nil => simp [plains]
  | cons e l ih => simp [plains, ih, Bool.and_assoc]

theorem plains_push (e : Expr) (h : plain e = true) : plains e.push = true := by
  cases e <;> first | rfl | simpa [Expr.push, plains] using h

theorem plain_mkBin (a b : Expr) (o : OpType) (ha : plain a = true) (hb : plain b = true) : plain (.mkBin none a o b) = true := by
  simp [Expr.mkBin, plain, plains_append, plains_push a ha, plains_push b hb]

theorem plain_mkUn (a : Expr) (o : OpType) (ha : plain a = true) : plain (.mkUn none o a) = true := by
  simp [Expr.mkUn, plain, plains, ha]

theorem plain_mkParam (a : Expr) (l : List Expr) (ha : plain a = true) (hl : plains l = true) : plain (.mkParam none a l) = true := by
  simp [Expr.mkParam, plain, plains, ha, hl]

theorem plain_mkCall (a : Expr) (l : List Expr) (ha : plain a = true) (hl : plains l = true) : plain (.mkCall none a l) = true := by
  simp [Expr.mkCall, plain, plains, ha, hl]

theorem plain_mkTernary (a b c : Expr) (ha : plain a = true) (hb : plain b = true) (hc : plain c = true) :
    plain (.mkTernary none a b c) = true := by
  simp [Expr.mkTernary, plain, plains, ha, hb, plains_push c hc]

theorem plain_append (a b : Expr) (o : OpType) (ha : plain a = true) (hb : plain b = true) : plain (appendExpr a o b) = true := by
  unfold appendExpr
  split
  · exact hb
  · exact plain_mkBin _ _ _ ha hb

theorem plain_reduce (o : OpType) (l : List Expr) : ∀ a : Expr, plain a = true → plains l = true → plain (reduceE o a l) = true := by
  induction l with
  | nil => intro a ha _; exact ha
  | cons e l ih =>
    intro a ha hl
    simp only [plains, Bool.and_eq_true] at hl
    exact ih _ (plain_append _ _ _ ha hl.1) hl.2

theorem plain_signE (s : Sign) : plain (signE s) = true := by cases s <;> rfl

theorem plain_mkWireT (t r : Expr) (s : Sign) (ht : plain t = true) (hr : plain r = true) : plain (mkWireT t r s) = true := by
  unfold mkWireT
  refine plain_mkParam _ _ ?_ ?_
  · split
    · rfl
    · exact ht
  · simp [plains, hr, plain_signE]

theorem plain_dprim (p : DPrim) : plain (visitDPrim p) = true := by
  unfold visitDPrim
  split
  · exact plain_mkWireT _ _ _ rfl rfl
  · rfl
  · exact plain_mkParam _ _ rfl (by simp [plains, plain_mkBin _ _ _ (show plain (.id none (c! "signed")) = true from rfl) (plain_signE _)])
  · rfl

theorem plain_nullOr (d : Expr) : plain d = true →
    plain (match d with | .null => .symb none .NULL | d => d : Expr) = true := by
  intro h
  split
  · rfl
  · exact h

theorem plain_fillWidth (d t : Expr) (hd : plain d = true) (ht : plain t = true) : plain (fillWidth d t) = true := by
  unfold fillWidth
  split
  · simp only [plain, plains, Bool.and_eq_true] at ht ⊢
    exact ⟨ht.1, ht.2.1, plain_nullOr d hd, ht.2.2.2⟩
  · exact ht

theorem plain_mkDim (t d : Expr) (ht : plain t = true) (hd : plain d = true) : plain (mkDim t d) = true := by
  unfold mkDim
  split
  · exact plain_mkUn _ _ ht
  · exact plain_mkBin _ _ _ ht hd

theorem plain_pathHead (loc : Bool) (h : PathHead) : plain (visitPathHead loc h) = true := by
  cases loc <;> cases h <;> rfl

theorem plain_ident (i : Ident) (e : Expr) (h : visitIdent i = .ok e) : plain e = true := by
  simp only [visitIdent, bind_ok, pure_ok] at h
  obtain ⟨s, -, rfl⟩ := h
  rfl

theorem plain_lit (l : Lit) (e : Expr) (h : visitLit l = .ok e) : plain e = true := by
  cases l <;> simp only [visitLit, bind_ok, pure_ok, Except.ok.injEq] at h <;>
    first
    | (subst h; rfl)
    | (obtain ⟨s, -, rfl⟩ := h; rfl)

mutual
theorem plain_exp : ∀ (x : Exp) (e : Expr), visitExp x = .ok e → plain e = true
  | .prim p, e, h => plain_prim p e (by simpa only [visitExp] using h)
  | .opAssign, e, h | .tagged, e, h | .inside _, e, h => by
    simp only [visitExp, Except.ok.injEq] at h; subst h; rfl
  | .unary o p, e, h => by
    simp only [visitExp, bind_ok, pure_ok] at h
    obtain ⟨a, ha, rfl⟩ := h
    exact plain_mkUn _ _ (plain_prim p a ha)
  | .incDec _ _ l, e, h => by
    simp only [visitExp, bind_ok, pure_ok] at h
    obtain ⟨a, ha, rfl⟩ := h
    exact plain_mkUn _ _ (plain_lval l a ha)
  | .bin a _ b, e, h => by
    simp only [visitExp, bind_ok, pure_ok] at h
    obtain ⟨a', ha, b', hb, rfl⟩ := h
    exact plain_mkBin _ _ _ (plain_exp a a' ha) (plain_exp b b' hb)
  | .tripleAnd _ _ _ _, e, h => by simp [visitExp] at h
  | .cond c m t f, e, h => by
    simp only [visitExp] at h
    split at h
    · simp only [Except.ok.injEq] at h; subst h; rfl
    · simp only [bind_ok, pure_ok] at h
      obtain ⟨a', ha, b', hb, c', hc, rfl⟩ := h
      exact plain_mkTernary _ _ _ (plain_exp _ _ ha) (plain_exp _ _ hb) (plain_exp _ _ hc)
theorem plain_prim : ∀ (x : Prim) (e : Expr), visitPrim x = .ok e → plain e = true
  | .lit l, e, h => plain_lit l e (by simpa only [visitPrim] using h)
  | .path p, e, h => plain_path p e (by simpa only [visitPrim] using h)
  | .par m, e, h => plain_mtm m e (by simpa only [visitPrim] using h)
  | .cast, e, h | .streaming, e, h | .tfCall0 _, e, h | .randomize, e, h | .randomize2, e, h => by
    simp only [visitPrim, Except.ok.injEq] at h; subst h; rfl
  | .cast2 p x, e, h => by
    simp only [visitPrim, bind_ok, pure_ok] at h
    obtain ⟨a', ha, b', hb, rfl⟩ := h
    exact plain_mkBin _ _ _ (plain_prim _ _ ha) (plain_exp _ _ hb)
  | .bitSel p x, e, h => by
    simp only [visitPrim, bind_ok, pure_ok] at h
    obtain ⟨a', ha, b', hb, rfl⟩ := h
    exact plain_append _ _ _ (plain_prim _ _ ha) (plain_exp _ _ hb)
  | .dot p i, e, h => by
    simp only [visitPrim, bind_ok, pure_ok] at h
    obtain ⟨a', ha, b', hb, rfl⟩ := h
    exact plain_append _ _ _ (plain_prim _ _ ha) (plain_ident _ _ hb)
  | .index p r, e, h => by
    simp only [visitPrim, bind_ok, pure_ok] at h
    obtain ⟨a', ha, b', hb, rfl⟩ := h
    exact plain_append _ _ _ (plain_prim _ _ ha) (plain_arange _ _ hb)
  | .concat c, e, h => plain_concat c e (by simpa only [visitPrim] using h)
  | .tfCall f args _, e, h => by
    simp only [visitPrim, bind_ok, pure_ok] at h
    obtain ⟨a', ha, rfl⟩ := h
    exact plain_mkCall _ _ rfl (plain_args _ _ _ ha)
  | .tfCallT f t args _, e, h => by
    simp only [visitPrim, bind_ok, pure_ok] at h
    obtain ⟨a', ha, b', hb, rfl⟩ := h
    exact plain_mkCall _ _ rfl (by simp [plains, plain_dtype _ _ ha, plain_args _ _ _ hb])
  | .assig _ a, e, h => plain_pattern a e (by simpa only [visitPrim] using h)
  | .typeRef t, e, h => plain_tref t e (by simpa only [visitPrim] using h)
  | .call0 p _ _, e, h => plain_prim p e (by simpa only [visitPrim] using h)
  | .call p _ args _, e, h => by
    simp only [visitPrim, bind_ok, pure_ok] at h
    obtain ⟨a', ha, b', hb, rfl⟩ := h
    exact plain_mkCall _ _ (plain_prim _ _ ha) (plain_args _ _ _ hb)
  | .methodNoArgs p _, e, h | .callWith p _ _, e, h => by
    simp only [visitPrim, bind_ok, pure_ok] at h
    obtain ⟨a', ha, rfl⟩ := h
    exact plain_mkCall _ _ (plain_prim _ _ ha) rfl
theorem plain_mtm : ∀ (x : MTM) (e : Expr), visitMTM x = .ok e → plain e = true
  | .one x, e, h => plain_exp x e (by simpa only [visitMTM] using h)
  | .three x _ _, e, h => plain_exp x e (by simpa only [visitMTM] using h)
theorem plain_arange : ∀ (x : ARange) (e : Expr), visitARange x = .ok e → plain e = true
  | .one x, e, h => plain_exp x e (by simpa only [visitARange] using h)
  | .range a b, e, h | .plus a b, e, h | .minus a b, e, h => by
    simp only [visitARange, bind_ok, pure_ok] at h
    obtain ⟨a', ha, b', hb, rfl⟩ := h
    exact plain_mkBin _ _ _ (plain_exp _ _ ha) (plain_exp _ _ hb)
theorem plain_concat : ∀ (x : Concat) (e : Expr), visitConcat x = .ok e → plain e = true
  | .list l, e, h => by
    simp only [visitConcat, bind_ok, pure_ok] at h
    obtain ⟨a', ha, rfl⟩ := h
    exact plain_reduce _ _ _ rfl (plain_exps _ _ ha)
  | .repl n c, e, h => by
    simp only [visitConcat, bind_ok, pure_ok] at h
    obtain ⟨a', ha, b', hb, rfl⟩ := h
    exact plain_mkBin _ _ _ (plain_exp _ _ ha) (plain_concat _ _ hb)
theorem plain_exps : ∀ (x : List Exp) (e : List Expr), visitExps x = .ok e → plains e = true
  | [], e, h => by simp only [visitExps, Except.ok.injEq] at h; subst h; rfl
  | x :: l, e, h => by
    simp only [visitExps, bind_ok, pure_ok] at h
    obtain ⟨a', ha, b', hb, rfl⟩ := h
    simp [plains, plain_exp _ _ ha, plain_exps _ _ hb]
theorem plain_path : ∀ (x : Path) (e : Expr), visitPath x = .ok e → plain e = true
  | .mk loc hd items, e, h => by
    simp only [visitPath, bind_ok] at h
    obtain ⟨a', ha, h⟩ := h
    have := plain_pathItems items _ _ (plain_pathHead loc hd) ha
    split at h
    · cases h
    · rw [pure_ok] at h; subst h; exact this
theorem plain_pathItems : ∀ (x : List PathItem) (s e : Expr), plain s = true → visitPathItems s x = .ok e → plain e = true
  | [], s, e, hs, h => by simp only [visitPathItems, Except.ok.injEq] at h; subst h; exact hs
  | i :: l, s, e, hs, h => by
    simp only [visitPathItems, bind_ok] at h
    obtain ⟨a', ha, h⟩ := h
    exact plain_pathItems l _ _ (plain_pathItem i _ _ hs ha) h
theorem plain_pathItem : ∀ (x : PathItem) (s e : Expr), plain s = true → visitPathItem s x = .ok e → plain e = true
  | .mk i pva, s, e, hs, h => by
    simp only [visitPathItem, bind_ok] at h
    obtain ⟨a', ha, h⟩ := h
    exact plain_pva pva _ _ (plain_append _ _ _ hs (plain_ident _ _ ha)) h
theorem plain_pva : ∀ (x : PVA) (s e : Expr), plain s = true → visitPVA s x = .ok e → plain e = true
  | .none, s, e, hs, h => by simp only [visitPVA, Except.ok.injEq] at h; subst h; exact hs
  | .ordered l, s, e, hs, h => by
    simp only [visitPVA, bind_ok, pure_ok] at h
    obtain ⟨a', ha, rfl⟩ := h
    exact plain_mkParam _ _ hs (plain_pexprs _ _ ha)
  | .named l, s, e, hs, h => by
    simp only [visitPVA, bind_ok, pure_ok] at h
    obtain ⟨a', ha, rfl⟩ := h
    exact plain_mkParam _ _ hs (plain_namedPs _ _ ha)
theorem plain_pexprs : ∀ (x : List PExpr) (e : List Expr), visitPExprs x = .ok e → plains e = true
  | [], e, h => by simp only [visitPExprs, Except.ok.injEq] at h; subst h; rfl
  | x :: l, e, h => by
    simp only [visitPExprs, bind_ok, pure_ok] at h
    obtain ⟨a', ha, b', hb, rfl⟩ := h
    simp [plains, plain_pexpr _ _ ha, plain_pexprs _ _ hb]
theorem plain_pexpr : ∀ (x : PExpr) (e : Expr), visitPExpr x = .ok e → plain e = true
  | .mtm m, e, h => plain_mtm m e (by simpa only [visitPExpr] using h)
  | .type m, e, h => plain_dtype m e (by simpa only [visitPExpr] using h)
theorem plain_namedPs : ∀ (x : List NamedP) (e : List Expr), visitNamedPs x = .ok e → plains e = true
  | [], e, h => by simp only [visitNamedPs, Except.ok.injEq] at h; subst h; rfl
  | x :: l, e, h => by
    simp only [visitNamedPs, bind_ok, pure_ok] at h
    obtain ⟨a', ha, b', hb, rfl⟩ := h
    simp [plains, plain_namedP _ _ ha, plain_namedPs _ _ hb]
theorem plain_namedP : ∀ (x : NamedP) (e : Expr), visitNamedP x = .ok e → plain e = true
  | .empty i, e, h => by
    simp only [visitNamedP, bind_ok, pure_ok] at h
    obtain ⟨a', ha, rfl⟩ := h
    exact plain_mkBin _ _ _ (plain_ident _ _ ha) rfl
  | .val i x, e, h => by
    simp only [visitNamedP, bind_ok, pure_ok] at h
    obtain ⟨a', ha, b', hb, rfl⟩ := h
    exact plain_mkBin _ _ _ (plain_ident _ _ ha) (plain_pexpr _ _ hb)
theorem plain_dtype : ∀ (x : DType) (e : Expr), visitDType x = .ok e → plain e = true
  | .string, e, h | .chandle, e, h | .event, e, h => by
    simp only [visitDType, Except.ok.injEq] at h; subst h; rfl
  | .virtual i p none, e, h => by
    simp only [visitDType, bind_ok, pure_ok] at h
    obtain ⟨a', ha, b', hb, rfl⟩ := h
    exact plain_pva _ _ _ (plain_ident _ _ ha) hb
  | .virtual i p (some m), e, h => by
    simp only [visitDType, bind_ok, pure_ok] at h
    obtain ⟨a', ha, b', hb, c', hc, rfl⟩ := h
    exact plain_mkBin _ _ _ (plain_pva _ _ _ (plain_ident _ _ ha) hb) (plain_ident _ _ hc)
  | .prim p dims, e, h => by
    simp only [visitDType] at h
    exact plain_vdims dims _ _ _ (plain_dprim p) h
  | .enum dims, e, h | .struct dims, e, h => by
    simp only [visitDType] at h
    exact plain_vdims dims _ _ _ rfl h
  | .path p dims, e, h => by
    simp only [visitDType, bind_ok] at h
    obtain ⟨a', ha, h⟩ := h
    exact plain_vdims dims _ _ _ (plain_path _ _ ha) h
  | .typeRef t, e, h => plain_tref t e (by simpa only [visitDType] using h)
theorem plain_vdims : ∀ (x : List VDim) (fill : Bool) (t e : Expr), plain t = true → visitVDims fill t x = .ok e → plain e = true
  | [], _, t, e, ht, h => by simp only [visitVDims, Except.ok.injEq] at h; subst h; exact ht
  | d :: l, fill, t, e, ht, h => by
    simp only [visitVDims, bind_ok] at h
    obtain ⟨a', ha, h⟩ := h
    have hd := plain_vdim d _ ha
    split at h
    · exact plain_vdims l _ _ _ (plain_fillWidth _ _ hd ht) h
    · exact plain_vdims l _ _ _ (plain_mkDim _ _ ht hd) h
theorem plain_vdim : ∀ (x : VDim) (e : Expr), visitVDim x = .ok e → plain e = true
  | .empty, e, h | .star, e, h => by simp only [visitVDim, Except.ok.injEq] at h; subst h; rfl
  | .type t, e, h => plain_dtype t e (by simpa only [visitVDim] using h)
  | .range r, e, h => plain_arange r e (by simpa only [visitVDim] using h)
theorem plain_tref : ∀ (x : TRef) (e : Expr), visitTRef x = .ok e → plain e = true
  | .expr x, e, h => by
    simp only [visitTRef, bind_ok, pure_ok] at h
    obtain ⟨a', ha, rfl⟩ := h
    exact plain_mkUn _ _ (plain_exp _ _ ha)
  | .type x, e, h => by
    simp only [visitTRef, bind_ok, pure_ok] at h
    obtain ⟨a', ha, rfl⟩ := h
    exact plain_mkUn _ _ (plain_dtype _ _ ha)
theorem plain_pattern : ∀ (x : Pattern) (e : Expr), visitPattern x = .ok e → plain e = true
  | .list l, e, h => by
    simp only [visitPattern, bind_ok, pure_ok] at h
    obtain ⟨a', ha, rfl⟩ := h
    simp [plain, plain_exps _ _ ha]
  | .keyed l, e, h => by
    simp only [visitPattern, bind_ok, pure_ok] at h
    obtain ⟨a', ha, rfl⟩ := h
    simp [plain, plain_kvs _ _ ha]
  | .repl _ l, e, h => by
    simp only [visitPattern, bind_ok, pure_ok] at h
    obtain ⟨a', ha, rfl⟩ := h
    rfl
theorem plain_kvs : ∀ (x : List KV) (e : List Expr), visitKVs x = .ok e → plains e = true
  | [], e, h => by simp only [visitKVs, Except.ok.injEq] at h; subst h; rfl
  | x :: l, e, h => by
    simp only [visitKVs, bind_ok, pure_ok] at h
    obtain ⟨a', ha, b', hb, rfl⟩ := h
    simp [plains, plain_kv _ _ ha, plain_kvs _ _ hb]
theorem plain_kv : ∀ (x : KV) (e : Expr), visitKV x = .ok e → plain e = true
  | .mk k x, e, h => by
    simp only [visitKV, bind_ok, pure_ok] at h
    obtain ⟨a', ha, b', hb, rfl⟩ := h
    exact plain_mkBin _ _ _ (plain_key _ _ hb) (plain_exp _ _ ha)
theorem plain_key : ∀ (x : Key) (e : Expr), visitKey x = .ok e → plain e = true
  | .ident i, e, h => plain_ident i e (by simpa only [visitKey] using h)
  | .dflt, e, h | .intType, e, h | .nonIntType, e, h => by simp only [visitKey, Except.ok.injEq] at h; subst h; rfl
  | .path p, e, h => plain_path p e (by simpa only [visitKey] using h)
  | .expr x, e, h => plain_exp x e (by simpa only [visitKey] using h)
theorem plain_lval : ∀ (x : LVal) (e : Expr), visitLVal x = .ok e → plain e = true
  | .brace l, e, h => by
    simp only [visitLVal, bind_ok, pure_ok] at h
    obtain ⟨a', ha, rfl⟩ := h
    exact plain_reduce _ _ _ rfl (plain_lvals _ _ ha)
  | .hier x, e, h => plain_hsel x e (by simpa only [visitLVal] using h)
  | .pattern, e, h => by simp [visitLVal] at h
  | .streaming, e, h => by simp only [visitLVal, Except.ok.injEq] at h; subst h; rfl
theorem plain_lvals : ∀ (x : List LVal) (e : List Expr), visitLVals x = .ok e → plains e = true
  | [], e, h => by simp only [visitLVals, Except.ok.injEq] at h; subst h; rfl
  | x :: l, e, h => by
    simp only [visitLVals, bind_ok, pure_ok] at h
    obtain ⟨a', ha, b', hb, rfl⟩ := h
    simp [plains, plain_lval _ _ ha, plain_lvals _ _ hb]
theorem plain_hsel : ∀ (x : HSel) (e : Expr), visitHSel x = .ok e → plain e = true
  | .mk p bits _ sel, e, h => by
    simp only [visitHSel, bind_ok] at h
    obtain ⟨a', ha, b', hb, h⟩ := h
    exact plain_sel _ _ _ (plain_bits _ _ _ (plain_path _ _ ha) hb) h
theorem plain_bits : ∀ (x : List Exp) (r e : Expr), plain r = true → visitBits r x = .ok e → plain e = true
  | [], r, e, hr, h => by simp only [visitBits, Except.ok.injEq] at h; subst h; exact hr
  | x :: l, r, e, hr, h => by
    simp only [visitBits, bind_ok] at h
    obtain ⟨a', ha, h⟩ := h
    exact plain_bits l _ _ (plain_append _ _ _ hr (plain_exp _ _ ha)) h
theorem plain_sel : ∀ (x : Sel) (r e : Expr), plain r = true → visitSel r x = .ok e → plain e = true
  | .none, r, e, hr, h => by simp only [visitSel, Except.ok.injEq] at h; subst h; exact hr
  | .range a b, r, e, hr, h | .plus a b, r, e, hr, h | .minus a b, r, e, hr, h => by
    simp only [visitSel, bind_ok, pure_ok] at h
    obtain ⟨a', ha, b', hb, rfl⟩ := h
    exact plain_append _ _ _ hr (plain_mkBin _ _ _ (plain_exp _ _ ha) (plain_exp _ _ hb))
theorem plain_args : ∀ (x : List Arg) (ex : Bool) (e : List Expr), visitArgs ex x = .ok e → plains e = true
  | [], _, e, h => by simp only [visitArgs, Except.ok.injEq] at h; subst h; rfl
  | .comma :: l, ex, e, h => by
    simp only [visitArgs, bind_ok, pure_ok] at h
    obtain ⟨a', ha, rfl⟩ := h
    have := plain_args l _ _ ha
    split
    · simp [plains, plain, this]
    · exact this
  | .expr x :: l, _, e, h => by
    simp only [visitArgs, bind_ok, pure_ok] at h
    obtain ⟨a', ha, b', hb, rfl⟩ := h
    simp [plains, plain_exp _ _ ha, plain_args _ _ _ hb]
  | .namedEmpty i :: l, _, e, h => by
    simp only [visitArgs, bind_ok, pure_ok] at h
    obtain ⟨a', ha, b', hb, rfl⟩ := h
    simp [plains, plain_mkBin _ _ _ (plain_ident _ _ ha) (show plain (.id none (c! "void")) = true from rfl), plain_args _ _ _ hb]
  | .named i x :: l, _, e, h => by
    simp only [visitArgs, bind_ok, pure_ok] at h
    obtain ⟨a', ha, b', hb, c', hc, rfl⟩ := h
    simp [plains, plain_mkBin _ _ _ (plain_ident _ _ ha) (plain_exp _ _ hb), plain_args _ _ _ hc]
end

theorem plain_packedDim (d : Option ARange) (e : Expr) (h : visitPackedDim d = .ok e) : plain e = true := by
  cases d with
  | none => simp only [visitPackedDim, Except.ok.injEq] at h; subst h; rfl
  | some r => exact plain_arange r e (by simpa only [visitPackedDim] using h)

theorem plain_packedDims (l : List (Option ARange)) : ∀ t e : Expr, plain t = true → visitPackedDims t l = .ok e → plain e = true := by
  induction l with
  | nil => intro t e ht h; simp only [visitPackedDims, Except.ok.injEq] at h; subst h; exact ht
  | cons d l ih =>
    intro t e ht h
    simp only [visitPackedDims, bind_ok] at h
    obtain ⟨a', ha, h⟩ := h
    exact ih _ _ (plain_mkDim _ _ ht (plain_packedDim _ _ ha)) h

theorem plain_implType (nt : Expr) (hn : plain nt = true) (t : Option ImplType) (e : Expr) (h : visitImplType nt t = .ok e) :
    plain e = true := by
  match t with
  | none =>
    simp only [visitImplType, Except.ok.injEq] at h
    subst h
    split
    · rfl
    · exact hn
  | some ⟨s, []⟩ =>
    simp only [visitImplType, Except.ok.injEq] at h
    subst h
    exact plain_mkWireT _ _ _ rfl rfl
  | some ⟨s, d :: l⟩ =>
    simp only [visitImplType, bind_ok] at h
    obtain ⟨a', ha, h⟩ := h
    exact plain_packedDims _ _ _ (plain_mkWireT _ _ _ hn (plain_nullOr _ (plain_packedDim _ _ ha))) h

theorem plain_dtypeOrImpl (nt : Expr) (hn : plain nt = true) (t : Option DTypeOrImpl) (e : Expr) (h : visitDTypeOrImpl nt t = .ok e) :
    plain e = true := by
  match t with
  | none => simp only [visitDTypeOrImpl, Except.ok.injEq] at h; subst h; rfl
  | some (.type t) => exact plain_dtype t e (by simpa only [visitDTypeOrImpl] using h)
  | some (.impl t) => exact plain_implType nt hn (some t) e (by simpa only [visitDTypeOrImpl] using h)

theorem plain_netOrVar (t : Option NetOrVar) (r : Expr × Bool) (h : visitNetOrVar t = .ok r) : plain r.1 = true := by
  match t with
  | none => simp only [visitNetOrVar, Except.ok.injEq] at h; subst h; rfl
  | some (.interconnect t) =>
    simp only [visitNetOrVar, bind_ok, pure_ok] at h
    obtain ⟨a, ha, rfl⟩ := h
    exact plain_implType _ rfl _ _ ha
  | some (.var t) | some (.net _ t) | some (.type t) =>
    simp only [visitNetOrVar, bind_ok, pure_ok] at h
    obtain ⟨a, ha, rfl⟩ := h
    exact plain_dtypeOrImpl _ rfl _ _ ha

theorem plain_netPort (t : Option NetPort) (e : Expr) (h : visitNetPort t = .ok e) : plain e = true := by
  match t with
  | none => simp only [visitNetPort, Except.ok.injEq] at h; subst h; rfl
  | some (.interconnect t) => exact plain_implType .null rfl t e (by simpa only [visitNetPort] using h)
  | some (.net kw t) => exact plain_dtypeOrImpl (.id none kw) rfl t e (by simpa only [visitNetPort] using h)
  | some (.type t) => exact plain_dtypeOrImpl .null rfl (some t) e (by simpa only [visitNetPort] using h)

theorem plain_varDType (t : Option VarDType) (e : Expr) (h : visitVarDType t = .ok e) : plain e = true := by
  match t with
  | none => simp only [visitVarDType, Except.ok.injEq] at h; subst h; rfl
  | some (.var t) => exact plain_dtypeOrImpl .null rfl t e (by simpa only [visitVarDType] using h)
  | some (.type t) => exact plain_dtype t e (by simpa only [visitVarDType] using h)

end Verif.Sv
