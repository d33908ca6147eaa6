import Verif.SvStmLemmas
import Verif.Spec.SvModule
/-!
# SystemVerilog modules: the supported fragment, and the induction over the parse tree
-/
namespace Verif.Sv
open Verif Verif.Spec.Sv

/-! ## Expressions that are not taken for an open or named connection -/

/-- Neither `null` nor `a => b`. -/
def top : Expr → Bool
  | .symb _ .NULL => false
  | .op _ .MAP_ASSOCIATION _ => false
  | _ => true

mutual
/-- The literal `null`, possibly in parentheses. -/
def isNullExp : Exp → Bool
  | .prim p => isNullPrim p
  | _ => false
def isNullPrim : Prim → Bool
  | .lit .null => true
  | .par m => isNullMTM m
  | _ => false
def isNullMTM : MTM → Bool
  | .one e => isNullExp e
  | .three _ _ _ => false
end

theorem top_op {p : Option CodePos} {o : OpType} {l : List Expr} (h : o ≠ .MAP_ASSOCIATION) : top (.op p o l) = true := by
  unfold top
  split
  · rename_i h'; cases h'
  · rename_i h'; injection h' with _ h'; exact absurd h' h
  · rfl

theorem top_append {a b : Expr} {o : OpType} (h : o ≠ .MAP_ASSOCIATION) (hb : top b = true) : top (appendExpr a o b) = true := by
  unfold appendExpr
  split
  · exact hb
  · exact top_op h

theorem top_ident {i : Ident} {e : Expr} (h : visitIdent i = .ok e) : top e = true := by
  simp only [visitIdent, bind_ok, pure_ok] at h
  obtain ⟨s, _, rfl⟩ := h
  rfl

theorem top_reduce (l : List Expr) : ∀ e : Expr, (∃ p x, e = .op p .CONCAT x) → top (reduceE .CONCAT e l) = true := by
  induction l with
  | nil => rintro _ ⟨p, x, rfl⟩; exact top_op (by decide)
  | cons a l ih =>
    rintro _ ⟨p, x, rfl⟩
    exact ih _ ⟨_, _, rfl⟩

theorem top_pathItems (l : List PathItem) : ∀ s r : Expr, top s = true → visitPathItems s l = .ok r → top r = true := by
  induction l with
  | nil => intro s r hs h; simp only [visitPathItems, Except.ok.injEq] at h; exact h ▸ hs
  | cons i l ih =>
    intro s r hs h
    obtain ⟨i, pva⟩ := i
    simp only [visitPathItems, visitPathItem, bind_ok] at h
    obtain ⟨x, ⟨y, hy, hx⟩, h⟩ := h
    refine ih x r ?_ h
    cases pva with
    | none => simp only [visitPVA, Except.ok.injEq] at hx; exact hx ▸ top_append (by decide) (top_ident hy)
    | ordered l =>
      simp only [visitPVA, bind_ok, pure_ok] at hx
      obtain ⟨_, _, rfl⟩ := hx
      exact top_op (by decide)
    | named l =>
      simp only [visitPVA, bind_ok, pure_ok] at hx
      obtain ⟨_, _, rfl⟩ := hx
      exact top_op (by decide)

theorem top_path (p : Path) (r : Expr) (h : visitPath p = .ok r) : top r = true := by
  obtain ⟨loc, hd, items⟩ := p
  simp only [visitPath, bind_ok] at h
  obtain ⟨x, hx, h⟩ := h
  have := top_pathItems items _ x (by cases loc <;> cases hd <;> rfl) hx
  split at h
  · cases h
  · rw [pure_ok] at h; exact h ▸ this

variable {V : Type} {A : Alg V} {leaf : Expr → V}

theorem exp_ne_null (hA : Agrees A leaf) {e : Exp} {r : Expr} (ho : okExp e) (h : visitExp e = .ok r) : r ≠ .null := by
  obtain ⟨e', h1, h2⟩ := exp_eval hA e ho
  rw [h] at h1
  cases h1
  exact ne_null h2

theorem prim_ne_null (hA : Agrees A leaf) {e : Prim} {r : Expr} (ho : okPrim e) (h : visitPrim e = .ok r) : r ≠ .null := by
  obtain ⟨e', h1, h2⟩ := prim_eval hA e ho
  rw [h] at h1
  cases h1
  exact ne_null h2

mutual
theorem top_exp (hA : Agrees A leaf) : ∀ (e : Exp) (r : Expr), visitExp e = .ok r → okExp e → isNullExp e = false → top r = true
  | .prim p, r, h, ho, hn => by
    simp only [visitExp] at h
    simp only [okExp] at ho
    simp only [isNullExp] at hn
    exact top_prim hA p r h ho hn
  | .opAssign, r, h, ho, _ => by simp only [okExp] at ho
  | .tagged, r, h, ho, _ => by simp only [okExp] at ho
  | .unary o p, r, h, ho, _ => by
    simp only [visitExp, bind_ok, pure_ok] at h
    obtain ⟨_, _, rfl⟩ := h
    exact top_op (by cases o <;> decide)
  | .incDec pre inc l, r, h, ho, _ => by
    simp only [visitExp, bind_ok, pure_ok] at h
    obtain ⟨_, _, rfl⟩ := h
    exact top_op (by cases pre <;> cases inc <;> decide)
  | .bin a o b, r, h, ho, _ => by
    simp only [visitExp, bind_ok, pure_ok] at h
    obtain ⟨_, _, _, _, rfl⟩ := h
    exact top_op (by cases o <;> decide)
  | .tripleAnd .., r, h, ho, _ => by simp only [okExp] at ho
  | .inside _, r, h, ho, _ => by simp only [okExp] at ho
  | .cond c m t e, r, h, ho, _ => by
    simp only [okExp] at ho
    obtain ⟨rfl, _⟩ := ho
    simp only [visitExp, Bool.false_eq_true, if_false, bind_ok, pure_ok] at h
    obtain ⟨_, _, _, _, _, _, rfl⟩ := h
    exact top_op (by decide)
theorem top_prim (hA : Agrees A leaf) : ∀ (e : Prim) (r : Expr), visitPrim e = .ok r → okPrim e → isNullPrim e = false → top r = true
  | .lit l, r, h, ho, hn => by
    simp only [visitPrim] at h
    cases l <;> simp only [visitLit, bind_ok, pure_ok, Except.ok.injEq] at h <;> first
      | (obtain ⟨_, _, rfl⟩ := h; rfl)
      | (subst h; first | rfl | (simp only [isNullPrim] at hn; cases hn))
  | .path p, r, h, _, _ => by simp only [visitPrim] at h; exact top_path p r h
  | .par m, r, h, ho, hn => by
    simp only [visitPrim] at h
    simp only [okPrim] at ho
    simp only [isNullPrim] at hn
    exact top_mtm hA m r h ho hn
  | .cast, r, h, ho, _ => by simp only [okPrim] at ho
  | .cast2 p e, r, h, ho, _ => by
    simp only [visitPrim, bind_ok, pure_ok] at h
    obtain ⟨_, _, _, _, rfl⟩ := h
    exact top_op (by decide)
  | .bitSel p e, r, h, ho, _ => by
    simp only [visitPrim, bind_ok, pure_ok] at h
    obtain ⟨p', hp, e', he, rfl⟩ := h
    simp only [okPrim] at ho
    unfold appendExpr
    split
    · exact absurd rfl (prim_ne_null hA ho.1 hp)
    · exact top_op (by decide)
  | .dot p i, r, h, ho, _ => by
    simp only [visitPrim, bind_ok, pure_ok] at h
    obtain ⟨p', hp, e', he, rfl⟩ := h
    exact top_append (by decide) (top_ident he)
  | .index p r', r, h, ho, _ => by
    simp only [visitPrim, bind_ok, pure_ok] at h
    obtain ⟨p', hp, e', he, rfl⟩ := h
    simp only [okPrim] at ho
    unfold appendExpr
    split
    · exact absurd rfl (prim_ne_null hA ho.1 hp)
    · exact top_op (by decide)
  | .concat c, r, h, ho, _ => by
    simp only [visitPrim] at h
    simp only [okPrim] at ho
    match c, ho with
    | .list l, ho =>
      simp only [okConcat] at ho
      simp only [visitConcat, bind_ok, pure_ok] at h
      obtain ⟨l', hl, rfl⟩ := h
      match l, ho with
      | a :: b :: l, ho =>
        simp only [okExps] at ho
        simp only [visitExps, bind_ok, pure_ok] at hl
        obtain ⟨a', ha, _, ⟨b', hb, _, _, rfl⟩, rfl⟩ := hl
        have := exp_ne_null hA ho.1.1 ha
        simp only [reduceE]
        refine top_reduce _ _ ?_
        cases a' <;> first | (exact absurd rfl this) | exact ⟨_, _, rfl⟩
    | .repl n c, ho =>
      simp only [visitConcat, bind_ok, pure_ok] at h
      obtain ⟨_, _, _, _, rfl⟩ := h
      exact top_op (by decide)
  | .streaming, r, h, ho, _ => by simp only [okPrim] at ho
  | .tfCall0 f, r, h, ho, _ => by
    simp only [visitPrim, Except.ok.injEq] at h
    exact h ▸ top_op (by decide)
  | .tfCall f a c, r, h, ho, _ => by
    simp only [visitPrim, bind_ok, pure_ok] at h
    obtain ⟨_, _, rfl⟩ := h
    exact top_op (by decide)
  | .tfCallT f t a c, r, h, ho, _ => by
    simp only [visitPrim, bind_ok, pure_ok] at h
    obtain ⟨_, _, _, _, rfl⟩ := h
    exact top_op (by decide)
  | .randomize, r, h, ho, _ => by simp only [okPrim] at ho
  | .randomize2, r, h, ho, _ => by simp only [okPrim] at ho
  | .assig t a, r, h, ho, _ => by
    simp only [visitPrim] at h
    cases a <;> simp only [visitPattern, bind_ok, pure_ok] at h <;> (obtain ⟨_, _, rfl⟩ := h; rfl)
  | .typeRef t, r, h, ho, _ => by
    simp only [visitPrim] at h
    cases t <;> simp only [visitTRef, bind_ok, pure_ok] at h <;> (obtain ⟨_, _, rfl⟩ := h; exact top_op (by decide))
  | .call0 p m w, r, h, ho, _ => by
    simp only [visitPrim] at h
    simp only [okPrim] at ho
    match p, ho with
    | .tfCall0 f, ho =>
      simp only [visitPrim, Except.ok.injEq] at h
      exact h ▸ top_op (by decide)
  | .call p m a w, r, h, ho, _ => by
    simp only [visitPrim, bind_ok, pure_ok] at h
    obtain ⟨_, _, _, _, rfl⟩ := h
    exact top_op (by decide)
  | .methodNoArgs .., r, h, ho, _ => by simp only [okPrim] at ho
  | .callWith .., r, h, ho, _ => by simp only [okPrim] at ho
theorem top_mtm (hA : Agrees A leaf) : ∀ (e : MTM) (r : Expr), visitMTM e = .ok r → okMTM e → isNullMTM e = false → top r = true
  | .one e, r, h, ho, hn => by
    simp only [visitMTM] at h
    simp only [okMTM] at ho
    simp only [isNullMTM] at hn
    exact top_exp hA e r h ho hn
  | .three .., r, h, ho, _ => by simp only [okMTM] at ho
end

end Verif.Sv
