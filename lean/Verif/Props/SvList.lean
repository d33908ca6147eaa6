import Verif.Props.SvPorts
import Verif.Props.SvDecl2
/-!
# Lists in one SystemVerilog construct (C72)

`m #(..) a(..), b(..);` means `m #(..) a(..); m #(..) b(..);`, and likewise for gates, continuous assignments, genvars and imports.
-/
namespace Verif.Sv
open Verif Verif.Spec.Sv

theorem plains_paramMap (p : PVA) (gm : List Expr) (h : visitParamMap p = .ok gm) : plains gm = true := by
  cases p with
  | none => simp only [visitParamMap, Except.ok.injEq] at h; rw [← h]; rfl
  | ordered l => exact plain_pexprs l gm h
  | named l => exact plain_namedPs l gm h

theorem hierInstsRest_each (m : Str) (gm : List Expr) (hp : plains gm = true) (l : List HierInst) : ∀ r, visitHierInstsRest m gm l = .ok r →
    List.Forall₂ (fun h o => visitHierInst m gm h = .ok o) l r := by
  induction l with
  | nil => intro r h; simp only [visitHierInstsRest, Except.ok.injEq] at h; rw [← h]; exact .nil
  | cons x l ih =>
    intro r h
    simp only [visitHierInstsRest, bind_ok, pure_ok] at h
    obtain ⟨gm', hg, o, ho, l', hl, rfl⟩ := h
    rw [plains_clone gm gm' hp hg] at ho
    exact .cons ho (ih _ hl)

/-- C72, instances: what `m #(..) a(..), b(..);` gives is what `m #(..) a(..); m #(..) b(..);` gives. -/
theorem C72_instances (m : Ident) (p : PVA) (l : List HierInst) (r : List Obj) (h : visitModInst ⟨m, p, l⟩ = .ok r) :
    l.mapM (fun x => visitModInst ⟨m, p, [x]⟩) = .ok (r.map fun o => [o]) := by
  simp only [visitModInst, bind_ok] at h
  obtain ⟨gm, hg, h⟩ := h
  have one : ∀ x o, visitHierInst m.text gm x = .ok o → visitModInst ⟨m, p, [x]⟩ = .ok [o] := by
    intro x o ho
    simp only [visitModInst, hg, ho, visitHierInstsRest, bind, Except.bind, pure, Except.pure]
  apply mapM_of_forall₂
  rw [List.forall₂_map_right_iff]
  cases l with
  | nil => rw [pure_ok] at h; rw [← h]; exact .nil
  | cons x l =>
    simp only [bind_ok, pure_ok] at h
    obtain ⟨o, ho, l', hl, rfl⟩ := h
    exact .cons (one _ _ ho) ((hierInstsRest_each _ gm (plains_paramMap p gm hg) l l' hl).imp one)

/-- C72, continuous assignments: `assign a = x, b = y;` -/
theorem C72_assignments (l : List (LVal × Exp)) (r : List Obj) (h : visitContAssign l = .ok r) :
    l.mapM (fun x => visitContAssign [x]) = .ok (r.map fun o => [o]) := by
  simp only [visitContAssign] at h ⊢
  apply mapM_of_forall₂
  rw [List.forall₂_map_right_iff]
  induction l generalizing r with
  | nil => simp only [visitVarAssigns, Except.ok.injEq] at h; rw [← h]; exact .nil
  | cons x l ih =>
    simp only [visitVarAssigns, bind_ok, pure_ok] at h
    obtain ⟨o, ho, l', hl, rfl⟩ := h
    exact .cons (by simp only [visitVarAssigns, ho, bind, Except.bind, pure, Except.pure]) (ih _ hl)

/-- C72, genvars: `genvar a, b;` -/
theorem C72_genvars (l : List Ident) (r : List Obj) (h : visitGenvars l = .ok r) :
    l.mapM (fun x => visitGenvars [x]) = .ok (r.map fun o => [o]) := by
  apply mapM_of_forall₂
  rw [List.forall₂_map_right_iff]
  induction l generalizing r with
  | nil => simp only [visitGenvars, Except.ok.injEq] at h; rw [← h]; exact .nil
  | cons x l ih =>
    simp only [visitGenvars, bind_ok, pure_ok] at h
    obtain ⟨n, hn, l', hl, rfl⟩ := h
    exact .cons (by simp only [visitGenvars, hn, bind, Except.bind, pure, Except.pure]) (ih _ hl)

/-- C72, gates: `and a(..), b(..);` -/
theorem C72_input_gates (g : NGate) (l : List NInInst) (r : List Obj) (h : visitGate (.nIn g l) = .ok r) :
    l.mapM (fun x => visitGate (.nIn g [x])) = .ok (r.map fun o => [o]) := by
  simp only [visitGate] at h ⊢
  apply mapM_of_forall₂
  rw [List.forall₂_map_right_iff]
  induction l generalizing r with
  | nil => simp only [visitNInInsts, Except.ok.injEq] at h; rw [← h]; exact .nil
  | cons x l ih =>
    simp only [visitNInInsts, bind_ok, pure_ok] at h
    obtain ⟨o, ho, l', hl, rfl⟩ := h
    exact .cons (by simp only [visitNInInsts, ho, bind, Except.bind, pure, Except.pure]) (ih _ hl)

/-- C72, gates: `buf a(..), b(..);`, `not a(..), b(..);` -/
theorem C72_output_gates (g : Bool) (l : List NOutInst) (r : List Obj) (h : visitGate (.nOut g l) = .ok r) :
    l.mapM (fun x => visitGate (.nOut g [x])) = .ok (r.map fun o => [o]) := by
  simp only [visitGate] at h ⊢
  apply mapM_of_forall₂
  rw [List.forall₂_map_right_iff]
  induction l generalizing r with
  | nil => simp only [visitNOutInsts, Except.ok.injEq] at h; rw [← h]; exact .nil
  | cons x l ih =>
    simp only [visitNOutInsts, bind_ok, pure_ok] at h
    obtain ⟨o, ho, l', hl, rfl⟩ := h
    exact .cons (by simp only [visitNOutInsts, ho, bind, Except.bind, pure, Except.pure]) (ih _ hl)

/-- C72 is violated for imports: `import p::a, q::b;` is one import with the path `p, a, q, b`. -/
theorem C72_violated_import (p a q b : Str) :
    visitDataDecl (.import_ [⟨idI p, some (idI a)⟩, ⟨idI q, some (idI b)⟩]) =
      .ok [.import_ {} [.id none p, .id none a, .id none q, .id none b]] ∧
    visitDataDecl (.import_ [⟨idI p, some (idI a)⟩]) = .ok [.import_ {} [.id none p, .id none a]] := ⟨rfl, rfl⟩

/-- C67 is violated: `m #({}) a(), b();` copies the null pointer of the empty concatenation. -/
theorem C67_violated_instances (m a b : Str) :
    visitModInst ⟨idI m, .ordered [.mtm (.one (.prim (.concat (.list []))))], [⟨idI a, [], .ordered []⟩, ⟨idI b, [], .ordered []⟩]⟩ =
      .error .ub := by
  simp only [visitModInst, visitParamMap, visitPExprs, visitPExpr, visitMTM, visitExp, visitPrim, visitConcat, visitExps, visitHierInst,
    visitIdent, identStr, idI, visitUnpackedDims, visitConns, visitOrderedConns, visitHierInstsRest, bind, Except.bind, pure, Except.pure]
  rfl

/-- C67 is violated: `typedef foo;` dereferences a null pointer. -/
theorem C67_violated_typedef (n : Ident) : visitDataDecl (.type (.bare n)) = .error .ub := rfl

/-- `m #(W) a(x), b(.y(z));` -/
example : ∃ r, visitModInst ⟨idI (c! "m"), .ordered [.mtm (.one (idE (c! "W")))],
    [⟨idI (c! "a"), [], .ordered [some (idE (c! "x"))]⟩, ⟨idI (c! "b"), [], .named [.val (idI (c! "y")) (idE (c! "z"))]⟩]⟩ = .ok r := by
  simp only [visitModInst, visitParamMap, visitPExprs, visitPExpr, visitMTM, visit_idE, visitHierInst, visitIdent, identStr, idI,
    visitUnpackedDims, visitConns, visitOrderedConns, visitNamedConns, visitNamedConn, visitHierInstsRest, bind, Except.bind, pure, Except.pure]
  exact ⟨_, rfl⟩

/-- An identifier as a target. -/
def idL (s : Str) : LVal := .hier (.mk (.mk false .items [.mk (idI s) .none]) [] [] .none)

theorem visit_idL (s : Str) : visitLVal (idL s) = .ok (.id none s) := by
  simp only [idL, visitLVal, visitHSel, visitPath, visitPathItems, visitPathItem, visitPVA, visitIdent, identStr, idI, visitBits, visitSel,
    bind, Except.bind, pure, Except.pure]
  rfl

/-- `assign a = x, b = y;`, `genvar i, j;`, `nand n1(o, x, y), n2(p, x);`, `not (o, x), (p, y);` -/
example : (∃ r, visitContAssign [(idL (c! "a"), idE (c! "x")), (idL (c! "b"), idE (c! "y"))] = .ok r) ∧
    (∃ r, visitGenvars [idI (c! "i"), idI (c! "j")] = .ok r) ∧
    (∃ r, visitGate (.nIn .nand [⟨some (idI (c! "n1"), []), idL (c! "o"), [idE (c! "x"), idE (c! "y")]⟩,
      ⟨some (idI (c! "n2"), []), idL (c! "p"), [idE (c! "x")]⟩]) = .ok r) ∧
    ∃ r, visitGate (.nOut true [⟨none, [idL (c! "o")], idE (c! "x")⟩, ⟨none, [idL (c! "p")], idE (c! "y")⟩]) = .ok r := by
  refine ⟨?_, ⟨_, rfl⟩, ?_, ?_⟩
  · simp only [visitContAssign, visitVarAssigns, visitVarAssign, visit_idL, visit_idE, bind, Except.bind, pure, Except.pure]
    exact ⟨_, rfl⟩
  · simp only [visitGate, visitNInInsts, visitNInInst, visitExps, visit_idL, visit_idE, visitIdent, identStr, idI, bind, Except.bind, pure,
      Except.pure]
    exact ⟨_, rfl⟩
  · simp only [visitGate, visitNOutInsts, visitNOutInst, visitLVals, visit_idL, visit_idE, bind, Except.bind, pure, Except.pure]
    exact ⟨_, rfl⟩

end Verif.Sv
