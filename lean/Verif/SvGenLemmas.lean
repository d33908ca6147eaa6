import Verif.SvItemLemmas
/-!
# SystemVerilog generate constructs: the supported fragment, and the induction over the parse tree
-/
namespace Verif.Sv
open Verif Verif.Spec.Sv

/-- A block of one item is the item. -/
structure MAgrees {V S M : Type} (N : MAlg V S M) : Prop where
  one : ∀ m, N.block none [m] = m

/-! ## The supported fragment -/

def okAlways (kw : AlwaysKw) : Stm → Prop
  | .mk none (.timing (.event e) x) => okEventCtl e ∧ okStmN x
  | .mk none (.timing (.delay d) x) => kw = .always ∧ okStm (.mk none (.timing (.delay d) x))
  | .mk label x => kw ≠ .always ∧ okStm (.mk label x) ∧ Spec.isTiming x = false

def okElab (t : ElabTask) : Prop := isKw t.name = true ∧ (t.args = [] ∨ okArgs true t.args)

def okGenInit (g : GenInit) : Prop := okIdent g.name ∧ okExp g.value

def okGenIter : GenIter → Prop
  | .assign i _ e => okIdent i ∧ okExp e
  | .incDec _ _ i => okIdent i

def okGenLabel (i : Option Ident) : Prop := ∀ x, i = some x → okIdent x

/-- The item stands for one object. -/
def oneItem : GenItem → Bool
  | .semi | .tf _ | .initial _ | .always .. | .loop .. | .if_ .. | .ifElse .. | .case .. | .elab _ => true
  | .inst m => m.insts.length == 1
  | .assign l => l.length == 1
  | .genvar l => l.length == 1
  | .localparam (.val _ l) => l.length == 1
  | .net (.net _ _ _ l) => l.length == 1
  | .data (.vars _ _ _ l) => l.length == 1
  | .data (.type (.data ..)) => true
  | .gate (.nIn _ l) => l.length == 1
  | _ => false

def oneG : GItem → Bool
  | .item i => oneItem i
  | .block .. => true
  | _ => false

def isRegion : GItem → Bool
  | .region _ => true
  | _ => false

def isGDefault : CaseGItem → Bool
  | .dflt _ => true
  | .exprs .. => false

mutual
/-- No parameters (C74), no `initial fork` (C70), no region as the `else` branch, case branches of one object. -/
def okGenItem : GenItem → Prop
  | .ignored _ => False
  | .gate g => okGate g
  | .inst m => okInst m
  | .localparam d => okBlockDecl (.localparam d)
  | .param _ => False
  | .semi => True
  | .net d => okNet d
  | .data d => okBlockDecl (.data d)
  | .tf d => okTf d
  | .genvar l => ∀ i ∈ l, okIdent i
  | .assign l => ∀ a ∈ l, okVarAssign a
  | .initial s => okStmN s ∧ isForkN s = false
  | .always kw s => okAlways kw s
  | .loop i c st b => okGenInit i ∧ okExp c ∧ okGenIter st ∧ okGItem b
  | .if_ c t => okExp c ∧ okGItem t
  | .ifElse c t f => okExp c ∧ okGItem t ∧ okGItem f ∧ isRegion f = false
  | .case sel l => okExp sel ∧ okGCases l ∧ (l.filter isGDefault).length ≤ 1
  | .elab t => okElab t
def okGItem : GItem → Prop
  | .item i => okGenItem i
  | .externTf => False
  | .rand => False
  | .region l => okGItems l
  | .block pre label l e => okGItems l ∧ okGenLabel pre ∧ okGenLabel label ∧ okGenLabel e ∧ (pre = none → label = none → e = none)
def okGItems : List GItem → Prop
  | [] => True
  | g :: l => okGItem g ∧ okGItems l
def okGCases : List CaseGItem → Prop
  | [] => True
  | .dflt g :: l => okGItem g ∧ oneG g = true ∧ okGCases l
  | .exprs es g :: l => (∀ e ∈ es, okExp e) ∧ okGItem g ∧ oneG g = true ∧ okGCases l
end

variable {V S M : Type} {A : Alg V} {B : SAlg V S} {N : MAlg V S M} {leaf : Expr → V}

/-! ## Items -/

theorem genvars_eval (hA : Agrees A leaf) (l : List Ident) (h : ∀ i ∈ l, okIdent i) :
    ∃ r, visitGenvars l = .ok r ∧ astItems A B N leaf r =
      some (l.map fun i => N.stm (B.decl {} (A.ident i) (A.kw (c! "genvar")) none)) ∧ declares r l ∧ allIds r := by
  induction l with
  | nil => exact ⟨[], rfl, rfl, (fun o ho => by cases ho), (fun o ho => by cases ho)⟩
  | cons i l ih =>
    obtain ⟨r, h1, h2, h3, h4⟩ := ih fun x hx => h x (.tail _ hx)
    obtain ⟨s, h5, h6⟩ := ident_leaf hA (h i (.head _))
    refine ⟨_, by simp only [visitGenvars, h5, h1, bind, Except.bind, pure, Except.pure]; rfl, ?_, ?_, ?_⟩
    · simp only [astItems, astItem, astDecl, astType_some (B := B) (kw_eval hA (show isKw (c! "genvar") = true by decide)), astOpt, h2, h6,
        Option.map_some, Option.bind_eq_bind, Option.bind_some, pure, List.map_cons]
    · intro o ho d hd
      cases ho with
      | head => simp only [Obj.idDef?, Option.some.injEq] at hd; subst hd; exact ⟨i, .head _, h5⟩
      | tail _ ho =>
        obtain ⟨j, hj, h⟩ := h3 o ho d hd
        exact ⟨j, .tail _ hj, h⟩
    · intro o ho
      cases ho with
      | head => exact ⟨_, rfl⟩
      | tail _ ho => exact h4 o ho

theorem contAssign_eval (hA : Agrees A leaf) (l : List (LVal × Exp)) (h : ∀ a ∈ l, okVarAssign a) :
    ∃ r, visitContAssign l = .ok r ∧ astItems A B N leaf r = some (l.map fun a => N.assign (evLVal A a.1) (evExp A a.2)) ∧
      ∀ o ∈ r, ∃ d s, o = .assign {} d s .null none false := by
  induction l with
  | nil => exact ⟨[], rfl, rfl, (fun o ho => by cases ho)⟩
  | cons a l ih =>
    obtain ⟨r, h1, h2, h3⟩ := ih fun x hx => h x (.tail _ hx)
    obtain ⟨d, h4, h5⟩ := lval_eval hA a.1 (h a (.head _)).1
    obtain ⟨s, h6, h7⟩ := exp_eval hA a.2 (h a (.head _)).2
    simp only [visitContAssign] at h1
    refine ⟨.assign {} d s .null none false :: r, ?_, ?_, ?_⟩
    · simp only [visitContAssign, visitVarAssigns, visitVarAssign, h4, h6, h1, mkAssign_eq h5 h7, bind, Except.bind, pure, Except.pure]
    · simp only [astItems, astItem, h5, h7, h2, Option.bind_eq_bind, Option.bind_some, pure, List.map_cons]
    · intro o ho
      cases ho with
      | head => exact ⟨_, _, rfl⟩
      | tail _ ho => exact h3 o ho

theorem waits_none (l : List Obj) : ∀ vs, astStms A B leaf l = some vs → waitsForever l = none := by
  induction l with
  | nil => intro vs _; rfl
  | cons o l ih =>
    intro vs h
    simp only [astStms] at h
    cases ho : astStm A B leaf o with
    | none => simp [ho] at h
    | some v =>
      cases hl : astStms A B leaf l with
      | none => simp [ho, hl] at h
      | some vl =>
        have := ih vl hl
        unfold waitsForever
        split
        · rfl
        · rename_i h1; injection h1 with h1 _; subst h1; simp [astStm] at ho
        · rename_i h1; injection h1 with h1 h2; subst h1 h2; rw [this]; rfl

theorem astInitial_none {b : Obj} {v : S} (h : astStm A B leaf b = some v) : astInitial A B leaf (.process {} .NONE none b) = none := by
  unfold astInitial
  split
  · rename_i h'
    injection h' with _ _ _ h'
    subst h'
    rename_i i l _ _ _
    simp only [astStm] at h
    cases hl : astStms A B leaf l with
    | none => simp [hl, withInfo] at h
    | some vl => rw [waits_none l vl hl]; rfl
  · rfl

theorem initial_item (hA : Agrees A leaf) (hB : SAgrees A B) (s : StmN) (h : okStmN s) (hf : isForkN s = false) :
    ∃ b, visitInitial s = .ok (.process {} .NONE none b) ∧ astItem A B N leaf (.process {} .NONE none b) = some (N.initial (evStmN A B s)) := by
  obtain ⟨o, h1, h2⟩ := C70_initial_partial A B leaf hA hB s h hf
  have h1' := h1
  simp only [visitInitial, bind_ok, pure_ok] at h1'
  obtain ⟨o', _, rfl⟩ := h1'
  refine ⟨_, h1, ?_⟩
  simp only [astItem, astProcess, h2]

theorem always_item (hA : Agrees A leaf) (hB : SAgrees A B) (kw : AlwaysKw) (s : Stm) (h : okAlways kw s) :
    ∃ t sens b, visitAlways kw s = .ok (.process {} t sens b) ∧
      astItem A B N leaf (.process {} t sens b) = some (evAlways A B N kw s) := by
  have plain : ∀ label x, kw ≠ .always ∧ okStm (.mk label x) ∧ Spec.isTiming x = false →
      ∃ t sens b, visitAlways kw (.mk label x) = .ok (.process {} t sens b) ∧
      astItem A B N leaf (.process {} t sens b) = some (evAlways A B N kw (.mk label x)) := by
    rintro label x ⟨hk, ho, ht⟩
    obtain ⟨b, h1, h2⟩ := C71_always_plain_partial A B leaf hA hB kw hk label x ho ht
    refine ⟨_, _, b, h1, ?_⟩
    have he : evAlways A B N kw (.mk label x) = N.always (Spec.triggerOf kw) none (evStm A B (.mk label x)) := by
      unfold evAlways
      split
      · rename_i h; injection h with _ h; subst h; simp [Spec.isTiming] at ht
      · cases kw <;> rfl
    rw [he]
    cases kw <;> first | (exact absurd rfl hk) | simp only [astItem, astProcess, Spec.triggerOf, h2, Option.map_some]
  unfold okAlways at h
  split at h
  · rename_i e x
    obtain ⟨evs, b, h1, h2, h3⟩ := C71_always_events_partial A B leaf hA hB kw e x h.1 h.2
    refine ⟨_, _, b, h1, ?_⟩
    simp only [astItem, astProcess, h2, h3, Option.bind_eq_bind, Option.bind_some, pure, evAlways]
    cases kw <;> rfl
  · rename_i d x
    obtain ⟨rfl, h⟩ := h
    obtain ⟨b, h1, h2⟩ := C71_always_delay_partial A B leaf hA hB d x h
    refine ⟨_, _, b, h1, ?_⟩
    cases hb : astStm A B leaf b with
    | none => simp [hb] at h2
    | some v =>
      simp only [hb, Option.map_some, Option.some.injEq] at h2
      simp only [astItem, astProcess, astInitial_none hb, hb, Option.map_some, h2]
      simp only [evAlways, evStm, optLabel, evItem]
  · exact plain _ _ h

theorem elab_item (hA : Agrees A leaf) (t : ElabTask) (h : okElab t) :
    ∃ e, visitElabTask t = .ok (.expr {} e) ∧ astItem A B N leaf (.expr {} e) = some (N.stm (evElab A B t)) := by
  obtain ⟨name, num, args⟩ := t
  obtain ⟨hn, ha⟩ := h
  simp only at hn ha
  have h1 : ∃ l, visitArgs true args = .ok l ∧ astEvals A leaf l = some (evElabArgs A args) := by
    rcases ha with rfl | ha
    · exact ⟨[], rfl, rfl⟩
    · obtain ⟨l, h1, h2⟩ := args_eval hA args ha
      refine ⟨l, h1, ?_⟩
      cases args with
      | nil => simp [okArgs] at ha
      | cons a l => exact h2
  obtain ⟨l, h1, h2⟩ := h1
  have hk := kw_eval hA hn
  cases num with
  | none =>
    refine ⟨_, by simp only [visitElabTask, h1, bind, Except.bind, pure, Except.pure]; rfl, ?_⟩
    simp only [astItem, List.nil_append, astEval_call hk h2, Option.map_some, evElab, Option.map_none, Option.toList]
  | some n =>
    refine ⟨_, by simp only [visitElabTask, h1, bind, Except.bind, pure, Except.pure]; rfl, ?_⟩
    have hl : astEval A leaf (.int none (svUnsigned n)) = some (A.lit (.integral (.unsigned n))) := by
      rw [← hA.lit (.integral (.unsigned n)) (.int none (svUnsigned n)) rfl rfl]
      rfl
    simp only [astItem, List.cons_append, List.nil_append, astEval_call hk (astEvals_cons hl h2), Option.map_some, evElab, Option.toList]

/-! ## Kinds of objects -/

/-- No declaration, and no `if`. -/
def neither (o : Obj) : Prop := o.idDef? = none ∧ ∀ i c t el f, o ≠ .if_ i c t el f

/-- An `if` is not marked. -/
def plainIf (l : List Obj) : Prop := ∀ o ∈ l, ∀ i c t el f, o = .if_ i c t el f → i = {}

theorem neither_declares {l : List Obj} (h : ∀ o ∈ l, neither o) (names : List Ident) : declares l names :=
  declares_none l names fun o ho => (h o ho).1

theorem neither_plainIf {l : List Obj} (h : ∀ o ∈ l, neither o) : plainIf l :=
  fun o ho i c t el f he => absurd he ((h o ho).2 i c t el f)

theorem allIds_plainIf {l : List Obj} (h : allIds l) : plainIf l := by
  intro o ho i c t el f he
  obtain ⟨d, rfl⟩ := h o ho
  cases he

theorem hierInst_kind {m : Str} {gm : List Expr} {h : HierInst} {o : Obj} (ho : visitHierInst m gm h = .ok o) : neither o := by
  simp only [visitHierInst, bind_ok, pure_ok] at ho
  obtain ⟨_, _, _, _, _, _, rfl⟩ := ho
  exact ⟨rfl, by rintro _ _ _ _ _ h; cases h⟩

theorem hierInstsRest_kind {m : Str} {gm : List Expr} (l : List HierInst) : ∀ r, visitHierInstsRest m gm l = .ok r → ∀ o ∈ r, neither o := by
  induction l with
  | nil => intro r h; simp only [visitHierInstsRest, Except.ok.injEq] at h; subst h; intro o ho; cases ho
  | cons x l ih =>
    intro r h
    simp only [visitHierInstsRest, bind_ok, pure_ok] at h
    obtain ⟨_, _, x', hx, l', hl, rfl⟩ := h
    intro o ho
    cases ho with
    | head => exact hierInst_kind hx
    | tail _ ho => exact ih l' hl o ho

theorem modInst_kind (m : ModInst) (r : List Obj) (h : visitModInst m = .ok r) : ∀ o ∈ r, neither o := by
  simp only [visitModInst, bind_ok] at h
  obtain ⟨gm, _, h⟩ := h
  split at h
  · rw [pure_ok] at h; subst h; intro o ho; cases ho
  · simp only [bind_ok, pure_ok] at h
    obtain ⟨x, hx, l, hl, rfl⟩ := h
    intro o ho
    cases ho with
    | head => exact hierInst_kind hx
    | tail _ ho => exact hierInstsRest_kind _ l hl o ho

theorem mkAssign_kind {d s dl : Expr} {ev : Option (List Expr)} {b : Bool} {o : Obj} (h : mkAssign d s dl ev b = .ok o) : neither o := by
  unfold mkAssign at h
  split at h
  · cases h
  · cases h
  · obtain rfl := Except.ok.inj h
    exact ⟨rfl, by rintro _ _ _ _ _ h; cases h⟩

theorem nOutInsts_kind (neg : Bool) (l : List NOutInst) : ∀ r, visitNOutInsts neg l = .ok r → ∀ o ∈ r, neither o := by
  induction l with
  | nil => intro r h; simp only [visitNOutInsts, Except.ok.injEq] at h; subst h; intro o ho; cases ho
  | cons x l ih =>
    intro r h
    simp only [visitNOutInsts, visitNOutInst, bind_ok, pure_ok] at h
    obtain ⟨x', ⟨_, _, _, _, hx⟩, l', hl, rfl⟩ := h
    intro o ho
    cases ho with
    | head => exact mkAssign_kind hx
    | tail _ ho => exact ih l' hl o ho

theorem nInInsts_kind (g : NGate) (l : List NInInst) : ∀ r, visitNInInsts g l = .ok r → ∀ o ∈ r, neither o := by
  induction l with
  | nil => intro r h; simp only [visitNInInsts, Except.ok.injEq] at h; subst h; intro o ho; cases ho
  | cons x l ih =>
    intro r h
    simp only [visitNInInsts, visitNInInst, bind_ok, pure_ok] at h
    obtain ⟨x', ⟨_, _, _, _, _, _, rfl⟩, l', hl, rfl⟩ := h
    intro o ho
    cases ho with
    | head => exact ⟨rfl, by rintro _ _ _ _ _ h; cases h⟩
    | tail _ ho => exact ih l' hl o ho

theorem gate_kind (g : Gate) (r : List Obj) (h : visitGate g = .ok r) : ∀ o ∈ r, neither o := by
  cases g with
  | nOut neg l => exact nOutInsts_kind neg l r h
  | nIn g l => exact nInInsts_kind g l r h
  | other => simp only [visitGate, Except.ok.injEq] at h; subst h; intro o ho; cases ho

theorem data_allIds (d : DataDecl) (ho : okBlockDecl (.data d)) (r : List Obj) (h : visitDataDecl d = .ok r) : allIds r := by
  cases d with
  | vars c life t l =>
    simp only [visitDataDecl, bind_ok, pure_ok] at h
    obtain ⟨e, _, r', hr, rfl⟩ := h
    intro o ho
    obtain ⟨x, hx, rfl⟩ := List.mem_map.1 ho
    exact ⟨_, rfl⟩
  | type d =>
    simp only [visitDataDecl, bind_ok, pure_ok] at h
    obtain ⟨x, hx, rfl⟩ := h
    intro o ho
    simp only [List.mem_singleton] at ho
    exact ⟨_, ho⟩
  | import_ l => exact ho.elim
  | nettype => exact ho.elim

theorem netAssign_name (t : Expr) (n : NetAssign) (d : IdDef) (h : visitNetAssign t n = .ok d) : identStr n.name = .ok d.name := by
  simp only [visitNetAssign, bind_ok, pure_ok] at h
  obtain ⟨_, h, _, _, _, _, rfl⟩ := h
  exact h

theorem netAssignsRest_mem (t : Expr) (l : List NetAssign) : ∀ r, visitNetAssignsRest t l = .ok r →
    ∀ d ∈ r, ∃ i ∈ l.map (·.name), identStr i = .ok d.name := by
  induction l with
  | nil => intro r h; simp only [visitNetAssignsRest, Except.ok.injEq] at h; subst h; intro d hd; cases hd
  | cons n l ih =>
    intro r h
    simp only [visitNetAssignsRest, bind_ok, pure_ok] at h
    obtain ⟨t', _, d', hd', r', hr, rfl⟩ := h
    intro d hd
    cases hd with
    | head => exact ⟨n.name, by simp, netAssign_name t' n _ hd'⟩
    | tail _ hd =>
      obtain ⟨i, hi, h⟩ := ih r' hr d hd
      exact ⟨i, by simp only [List.map_cons]; exact .tail _ hi, h⟩

theorem netAssigns_mem (t : Expr) (l : List NetAssign) (r : List IdDef) (h : visitNetAssigns t l = .ok r) :
    ∀ d ∈ r, ∃ i ∈ l.map (·.name), identStr i = .ok d.name := by
  cases l with
  | nil => simp only [visitNetAssigns, Except.ok.injEq] at h; subst h; intro d hd; cases hd
  | cons n l =>
    simp only [visitNetAssigns, bind_ok, pure_ok] at h
    obtain ⟨d', hd', r', hr, rfl⟩ := h
    intro d hd
    cases hd with
    | head => exact ⟨n.name, by simp, netAssign_name t n _ hd'⟩
    | tail _ hd =>
      obtain ⟨i, hi, h⟩ := netAssignsRest_mem t l r' hr d hd
      exact ⟨i, by simp only [List.map_cons]; exact .tail _ hi, h⟩

theorem netDecl_mem (d : NetDecl) (r : List IdDef) (h : visitNetDecl d = .ok r) : ∀ x ∈ r, ∃ i ∈ netNames d, identStr i = .ok x.name := by
  cases d with
  | interconnect => simp only [visitNetDecl, Except.ok.injEq] at h; subst h; intro x hx; cases hx
  | net kw extra t l =>
    simp only [visitNetDecl] at h
    split at h
    · obtain rfl := Except.ok.inj h; intro x hx; cases hx
    · simp only [bind_ok] at h
      obtain ⟨t', _, h⟩ := h
      exact netAssigns_mem t' l r h
  | user t l => exact netAssigns_mem _ l r h

/-! ## Generate constructs -/

theorem popBlock_eval (hN : MAgrees N) (l : List Obj) (vs : List M) (h : astItems A B N leaf l = some vs) :
    astItem A B N leaf (popBlock l) = some (N.block none vs) := by
  unfold popBlock
  split
  · rename_i o
    simp only [astItems] at h
    cases ho : astItem A B N leaf o with
    | none => simp [ho] at h
    | some v =>
      simp only [ho, Option.bind_eq_bind, Option.bind_some, pure, Option.some.injEq] at h
      subst h
      rw [hN.one]
  · simp only [astItem, h, Option.map_some, List.head?_nil, Option.map_none]

theorem popBlock_plain (l : List Obj) (h : plainIf l) : ∀ i c t el f, popBlock l = .if_ i c t el f → i = {} := by
  intro i c t el f he
  unfold popBlock at he
  split at he
  · exact h _ (.head _) i c t el f he
  · cases he

theorem mark_item (o : Obj) : astItem A B N leaf (markPreproc o) = astItem A B N leaf o := by
  cases o with
  | assign i d s dl ev b =>
    obtain ⟨ls, p⟩ := i
    cases ls with
    | nil => cases dl <;> try rfl
             cases ev <;> try rfl
             cases b <;> rfl
    | cons => rfl
  | for_ i a c st b =>
    obtain ⟨ls, p⟩ := i
    cases ls with
    | cons => rfl
    | nil =>
      cases a <;> try rfl
      rename_i i j l
      obtain ⟨ls, p⟩ := i
      cases ls <;> try rfl
      cases p <;> try rfl
      cases j <;> try rfl
      cases l with
      | nil => rfl
      | cons x l =>
        cases l <;> try rfl
        cases st <;> try rfl
        rename_i i e
        obtain ⟨ls, p⟩ := i
        cases ls <;> try rfl
        cases p <;> rfl
  | case i u t s c d =>
    obtain ⟨ls, p⟩ := i
    cases ls <;> try rfl
    cases u <;> try rfl
    cases t <;> rfl
  | block i j l => cases j <;> rfl
  | expr i e =>
    obtain ⟨ls, p⟩ := i
    cases ls <;> rfl
  | if_ i c t e f =>
    obtain ⟨ls, p⟩ := i
    cases ls <;> rfl
  | process i t s b =>
    obtain ⟨ls, p⟩ := i
    cases ls <;> rfl
  | nop i =>
    obtain ⟨ls, p⟩ := i
    cases ls <;> rfl
  | _ => rfl

theorem mark_items (l : List Obj) : astItems A B N leaf (l.map markPreproc) = astItems A B N leaf l := by
  induction l with
  | nil => rfl
  | cons o l ih => simp only [List.map_cons, astItems, mark_item, ih]

theorem mark_idDef (o : Obj) : (markPreproc o).idDef? = o.idDef? := by
  cases o <;> rfl

theorem mark_declares (l : List Obj) (names : List Ident) (h : declares l names) : declares (l.map markPreproc) names := by
  intro o ho d hd
  obtain ⟨x, hx, rfl⟩ := List.mem_map.1 ho
  rw [mark_idDef] at hd
  exact h x hx d hd

theorem optStm_item {o : Obj} {v : M} (h : astItem A B N leaf o = some v) : optStm o (astItem A B N leaf o) = some (some v) := by
  cases o <;> first | (simp [astItem] at h; done) | (simp only [optStm, h, Option.map_some])

theorem collapseG_eval {c : Expr} {t f : Obj} {vc : V} {vt vf : M} (hc : astEval A leaf c = some vc) (ht : astItem A B N leaf t = some vt)
    (hf : astItem A B N leaf f = some vf) (hi : ∀ i c t el f', f = .if_ i c t el f' → i = {}) :
    ∃ o, collapseElifs {} c t f = .ok o ∧ astItem A B N leaf o = some (N.if_ vc vt (some vf)) ∧ ∃ el f', o = .if_ {} c t el f' := by
  unfold collapseElifs
  split
  · rename_i j c' t' el f'
    obtain rfl := hi _ _ _ _ _ rfl
    refine ⟨_, by simp only [if_true]; rfl, ?_, _, _, rfl⟩
    simp only [astItem, Option.bind_eq_bind] at hf ⊢
    cases h1 : astEval A leaf c' with
    | none => simp [h1] at hf
    | some vc' =>
      cases h2 : astItem A B N leaf t' with
      | none => simp [h1, h2] at hf
      | some vt' =>
        cases h3 : optStm f' (astItem A B N leaf f') with
        | none => simp [h1, h2, h3] at hf
        | some vf' =>
          cases h4 : astGElifs A B N leaf el vf' with
          | none => simp [h1, h2, h3, h4] at hf
          | some ve =>
            simp only [h1, h2, h3, h4, Option.bind_some, pure, Option.some.injEq] at hf
            simp only [hc, ht, h1, h2, h4, astGElifs, Option.bind_eq_bind, Option.bind_some, pure, hf]
  · refine ⟨_, rfl, ?_, _, _, rfl⟩
    simp only [astItem, hc, ht, optStm_item hf, astGElifs, Option.bind_eq_bind, Option.bind_some, pure]

theorem genInit_eval (hA : Agrees A leaf) (g : GenInit) (h : okGenInit g) :
    ∃ o, visitGenInit g = .ok o ∧ astGenInit A leaf o = some (g.genvar, A.ident g.name, evExp A g.value) := by
  obtain ⟨gv, name, value⟩ := g
  obtain ⟨hn, hv⟩ := h
  obtain ⟨v, h1, h2⟩ := exp_eval hA value hv
  obtain ⟨s, h3, h4⟩ := ident_leaf hA hn
  cases gv with
  | true =>
    refine ⟨_, by simp only [visitGenInit, h1, h3, bind, Except.bind, pure, Except.pure, if_true]; rfl, ?_⟩
    simp only [astGenInit, h2, Option.map_some, h4]
  | false =>
    obtain ⟨d, h5, h6⟩ := ident_eval hA hn
    refine ⟨_, by simp only [visitGenInit, h1, h5, bind, Except.bind, Bool.false_eq_true, if_false, mkAssign_eq h6 h2]; rfl, ?_⟩
    simp only [astGenInit, h6, h2, Option.bind_eq_bind, Option.bind_some, pure]

theorem genIter_eval (hA : Agrees A leaf) (g : GenIter) (h : okGenIter g) :
    ∃ e, visitGenIter g = .ok (.expr {} e) ∧ astEval A leaf e = some (evGenStep A g) := by
  cases g with
  | assign i o e =>
    obtain ⟨d, h1, h2⟩ := ident_eval hA h.1
    obtain ⟨x, h3, h4⟩ := exp_eval hA e h.2
    refine ⟨_, by simp only [visitGenIter, h1, h3, bind, Except.bind, pure, Except.pure]; rfl, ?_⟩
    rw [astEval_bin h2 h4]
    cases o <;> rfl
  | incDec pre inc i =>
    obtain ⟨d, h1, h2⟩ := ident_eval hA h
    refine ⟨_, by simp only [visitGenIter, h1, bind, Except.bind, pure, Except.pure]; rfl, ?_⟩
    rw [astEval_un h2]
    cases pre <;> cases inc <;> rfl

theorem genLabels_eval (hA : Agrees A leaf) (pre label e : Option Ident) (h1 : okGenLabel pre) (h2 : okGenLabel label) (h3 : okGenLabel e)
    (h4 : pre = none → label = none → e = none) :
    ∃ l, genLabels [pre, label, e] = .ok l ∧ (l.head?.map fun s => leaf (.id none s)) = (pre.or label).map A.ident := by
  have one : ∀ (x : Option Ident) (l : List (Option Ident)) (r : List Str), okGenLabel x → genLabels l = .ok r →
      ∃ r', genLabels (x :: l) = .ok r' ∧ (r'.head?.map fun s => leaf (.id none s)) = (x.map A.ident).or (r.head?.map fun s => leaf (.id none s)) := by
    intro x l r hx hr
    cases x with
    | none => exact ⟨r, by rw [genLabels, hr], by simp⟩
    | some i =>
      obtain ⟨s, h5, h6⟩ := ident_leaf hA (hx i rfl)
      exact ⟨s :: r, by simp only [genLabels, h5, hr, bind, Except.bind, pure, Except.pure], by simp [h6]⟩
  obtain ⟨r1, h5, h6⟩ := one e [] [] h3 rfl
  obtain ⟨r2, h7, h8⟩ := one label _ r1 h2 h5
  obtain ⟨r3, h9, h10⟩ := one pre _ r2 h1 h7
  refine ⟨r3, h9, ?_⟩
  rw [h10, h8, h6]
  cases pre with
  | some i => rfl
  | none =>
    cases label with
    | some i => rfl
    | none => rw [h4 rfl rfl]; rfl

theorem oneItem_length (i : GenItem) (h : oneItem i = true) : (evGenItem A B N i).length = 1 := by
  unfold oneItem at h
  split at h <;> first
    | (cases h; done)
    | (simp only [evGenItem, List.length_singleton]; done)
    | (simp only [beq_iff_eq] at h; simp only [evGenItem, evInst, evParamDecl, evNetDecl, evDataDecl, evGate, List.length_map, h]; done)
    | rfl

theorem caseGExprs_eval (hA : Agrees A leaf) (s : Obj) (vs : M) (hs : astItem A B N leaf s = some vs) (es : List Exp) (h : ∀ e ∈ es, okExp e) :
    ∃ bs, visitCaseExprs s es = .ok bs ∧ astGBranches A B N leaf bs = some (es.map fun e => (evExp A e, vs)) ∧ noDefault bs := by
  induction es with
  | nil => exact ⟨[], rfl, rfl, fun _ _ h => by cases h⟩
  | cons e es ih =>
    obtain ⟨bs, h1, h2, h3⟩ := ih fun x hx => h x (.tail _ hx)
    obtain ⟨e', h4, h5⟩ := exp_eval hA e (h e (.head _))
    refine ⟨.mk e' s :: bs, by simp only [visitCaseExprs, h4, h1, bind, Except.bind, pure, Except.pure], ?_, ?_⟩
    · simp only [astGBranches, h5, hs, h2, Option.bind_eq_bind, Option.bind_some, pure, List.map_cons]
    · intro x o hm
      cases hm with
      | head => exact ne_null h5
      | tail _ hm => exact h3 x o hm

theorem astGBranches_append (a b : List Branch) (va vb : List (V × M)) (ha : astGBranches A B N leaf a = some va)
    (hb : astGBranches A B N leaf b = some vb) : astGBranches A B N leaf (a ++ b) = some (va ++ vb) := by
  induction a generalizing va with
  | nil => simp only [astGBranches, Option.some.injEq] at ha; subst ha; exact hb
  | cons x l ih =>
    obtain ⟨e, o⟩ := x
    simp only [astGBranches] at ha
    cases he : astEval A leaf e with
    | none => simp [he] at ha
    | some x =>
      cases ho : astItem A B N leaf o with
      | none => simp [he, ho] at ha
      | some w =>
        cases hl : astGBranches A B N leaf l with
        | none => simp [he, ho, hl] at ha
        | some y =>
          simp only [he, ho, hl, Option.bind_eq_bind, Option.bind_some, pure, Option.some.injEq] at ha
          subst ha
          simp only [List.cons_append, astGBranches, he, ho, ih y hl, Option.bind_eq_bind, Option.bind_some, pure]

theorem astItems_one (l : List Obj) (vs : List M) (h : astItems A B N leaf l = some vs) (h1 : vs.length = 1) :
    ∃ o v, l = [o] ∧ vs = [v] ∧ astItem A B N leaf o = some v := by
  cases l with
  | nil => simp only [astItems, Option.some.injEq] at h; subst h; cases h1
  | cons o l =>
    simp only [astItems] at h
    cases ho : astItem A B N leaf o with
    | none => simp [ho] at h
    | some v =>
      cases hl : astItems A B N leaf l with
      | none => simp [ho, hl] at h
      | some vl =>
        simp only [ho, hl, Option.bind_eq_bind, Option.bind_some, pure, Option.some.injEq] at h
        subst h
        have : vl = [] := by simpa using h1
        subst this
        cases l with
        | nil => exact ⟨o, v, rfl, rfl, ho⟩
        | cons x l =>
          simp only [astItems] at hl
          cases hx : astItem A B N leaf x with
          | none => simp [hx] at hl
          | some vx =>
            cases hl' : astItems A B N leaf l with
            | none => simp [hx, hl'] at hl
            | some vl => simp [hx, hl'] at hl

theorem oneG_length (g : GItem) (h : oneG g = true) : (evGItem A B N g).length = 1 := by
  cases g with
  | item i => rw [evGItem]; exact oneItem_length i h
  | block => simp only [evGItem, List.length_singleton]
  | externTf => cases h
  | rand => cases h
  | region l => cases h

theorem nonDecl {o : Obj} (h : o.idDef? = none) (names : List Ident) : declares [o] names := by
  apply declares_none
  intro x hx
  simp only [List.mem_singleton] at hx
  exact hx ▸ h

theorem plainIf_one {o : Obj} (h : ∀ i c t el f, o = .if_ i c t el f → i = {}) : plainIf [o] := by
  intro x hx
  simp only [List.mem_singleton] at hx
  exact hx ▸ h

mutual
theorem genItem_eval (hA : Agrees A leaf) (hB : SAgrees A B) (hN : MAgrees N) : ∀ x : GenItem, okGenItem x →
    ∃ l, visitGenItem x = .ok (l, []) ∧ astItems A B N leaf l = some (evGenItem A B N x) ∧ declares l (genItemNames x) ∧ plainIf l
  | .ignored _, h => by simp only [okGenItem] at h
  | .gate g, h => by
    simp only [okGenItem] at h
    obtain ⟨l, h1, h2⟩ := gate_eval (B := B) (N := N) hA g h
    have hk := gate_kind g l h1
    exact ⟨l, by simp only [visitGenItem, h1, bind, Except.bind, pure, Except.pure], by rw [evGenItem]; exact h2, neither_declares hk _,
      neither_plainIf hk⟩
  | .inst m, h => by
    simp only [okGenItem] at h
    obtain ⟨l, h1, h2⟩ := modInst_eval (B := B) (N := N) hA m h
    have hk := modInst_kind m l h1
    exact ⟨l, by simp only [visitGenItem, h1, bind, Except.bind, pure, Except.pure], by rw [evGenItem]; exact h2, neither_declares hk _,
      neither_plainIf hk⟩
  | .localparam d, h => by
    simp only [okGenItem] at h
    obtain ⟨l, h1, h2⟩ := blockDecl_eval (B := B) hA _ h
    simp only [visitBlockDecl, bind_ok, pure_ok] at h1
    obtain ⟨r, h1, rfl⟩ := h1
    exact ⟨r.map .id, by simp only [visitGenItem, h1, bind, Except.bind, pure, Except.pure],
      by rw [evGenItem]; exact ids_items _ (allIds_map r) _ h2, declares_ids r _ (localparam_mem d r h1), allIds_plainIf (allIds_map r)⟩
  | .param _, h => by simp only [okGenItem] at h
  | .semi, _ => ⟨[.nop {}], by simp only [visitGenItem],
      by simp only [astItems, astItem, Option.bind_eq_bind, Option.bind_some, pure, evGenItem], nonDecl rfl _,
      plainIf_one (by rintro _ _ _ _ _ h; cases h)⟩
  | .net d, h => by
    simp only [okGenItem] at h
    obtain ⟨r, h1, h2⟩ := net_eval (B := B) hA d h
    exact ⟨r.map .id, by simp only [visitGenItem, h1, bind, Except.bind, pure, Except.pure],
      by rw [evGenItem]; exact ids_items _ (allIds_map r) _ h2, declares_ids r _ (netDecl_mem d r h1), allIds_plainIf (allIds_map r)⟩
  | .data d, h => by
    simp only [okGenItem] at h
    obtain ⟨l, h1, h2⟩ := blockDecl_eval (B := B) hA _ h
    simp only [visitBlockDecl] at h1
    have hi := data_allIds d h l h1
    exact ⟨l, by simp only [visitGenItem, h1, bind, Except.bind, pure, Except.pure],
      by rw [evGenItem]; exact ids_items _ hi _ h2, dataDecl_names d l h1, allIds_plainIf hi⟩
  | .tf d, h => by
    simp only [okGenItem] at h
    obtain ⟨o, h1, h2, h3⟩ := tf_eval (N := N) hA hB d h
    refine ⟨[o], by simp only [visitGenItem, h1, bind, Except.bind, pure, Except.pure],
      by simp only [astItems, h2, Option.bind_eq_bind, Option.bind_some, pure, evGenItem], h3, ?_⟩
    have ho : ∃ hd b, o = .fn hd b := by
      have : ∀ ret s t d o, visitTfDecl ret s t d = .ok o → ∃ hd b, o = .fn hd b := by
        intro ret s t d o h
        simp only [visitTfDecl, bind_ok, pure_ok] at h
        obtain ⟨_, _, _, _, _, _, rfl⟩ := h
        exact ⟨_, _, rfl⟩
      cases d with
      | task => exact this _ _ _ _ _ h1
      | function =>
        simp only [visitTfDef, bind_ok] at h1
        obtain ⟨_, _, h1⟩ := h1
        exact this _ _ _ _ _ h1
    obtain ⟨_, _, rfl⟩ := ho
    exact plainIf_one (by rintro _ _ _ _ _ h; cases h)
  | .genvar l, h => by
    simp only [okGenItem] at h
    obtain ⟨r, h1, h2, h3, h4⟩ := genvars_eval (B := B) (N := N) hA l h
    exact ⟨r, by simp only [visitGenItem, h1, bind, Except.bind, pure, Except.pure], by rw [evGenItem]; exact h2, h3, allIds_plainIf h4⟩
  | .assign l, h => by
    simp only [okGenItem] at h
    obtain ⟨r, h1, h2, h3⟩ := contAssign_eval (B := B) (N := N) hA l h
    have hk : ∀ o ∈ r, neither o := by
      intro o ho
      obtain ⟨_, _, rfl⟩ := h3 o ho
      exact ⟨rfl, by rintro _ _ _ _ _ h; cases h⟩
    exact ⟨r, by simp only [visitGenItem, h1, bind, Except.bind, pure, Except.pure], by rw [evGenItem]; exact h2, neither_declares hk _,
      neither_plainIf hk⟩
  | .initial s, h => by
    simp only [okGenItem] at h
    obtain ⟨b, h1, h2⟩ := initial_item (N := N) hA hB s h.1 h.2
    exact ⟨_, by simp only [visitGenItem, h1, bind, Except.bind, pure, Except.pure]; rfl,
      by simp only [astItems, h2, Option.bind_eq_bind, Option.bind_some, pure, evGenItem], nonDecl rfl _,
      plainIf_one (by rintro _ _ _ _ _ h; cases h)⟩
  | .always kw s, h => by
    simp only [okGenItem] at h
    obtain ⟨t, sens, b, h1, h2⟩ := always_item (N := N) hA hB kw s h
    exact ⟨_, by simp only [visitGenItem, h1, bind, Except.bind, pure, Except.pure]; rfl,
      by simp only [astItems, h2, Option.bind_eq_bind, Option.bind_some, pure, evGenItem], nonDecl rfl _,
      plainIf_one (by rintro _ _ _ _ _ h; cases h)⟩
  | .loop i c st b, h => by
    simp only [okGenItem] at h
    obtain ⟨i', h1, h2⟩ := genInit_eval hA i h.1
    obtain ⟨c', h3, h4⟩ := exp_eval hA c h.2.1
    obtain ⟨st', h5, h6⟩ := genIter_eval hA st h.2.2.1
    obtain ⟨b', h7, h8, _, _⟩ := gItem_eval hA hB hN b h.2.2.2
    refine ⟨_, by simp only [visitGenItem, h1, h3, h5, h7, bind, Except.bind, pure, Except.pure]; rfl, ?_, nonDecl rfl _,
      plainIf_one (by rintro _ _ _ _ _ h; cases h)⟩
    simp only [astItems, astItem, h2, h4, h6, popBlock_eval hN b' _ h8, Option.bind_eq_bind, Option.bind_some, pure, evGenItem]
  | .if_ c t, h => by
    simp only [okGenItem] at h
    obtain ⟨c', h3, h4⟩ := exp_eval hA c h.1
    obtain ⟨b', h7, h8, _, _⟩ := gItem_eval hA hB hN t h.2
    refine ⟨_, by simp only [visitGenItem, h3, h7, collapseElifs, bind, Except.bind, pure, Except.pure]; rfl, ?_, nonDecl rfl _,
      plainIf_one (by rintro _ _ _ _ _ h; cases h; rfl)⟩
    simp only [astItems, astItem, h4, popBlock_eval hN b' _ h8, optStm, astGElifs, Option.bind_eq_bind, Option.bind_some, pure, evGenItem]
  | .ifElse c t f, h => by
    simp only [okGenItem] at h
    obtain ⟨c', h3, h4⟩ := exp_eval hA c h.1
    obtain ⟨t', h7, h8, _, _⟩ := gItem_eval hA hB hN t h.2.1
    obtain ⟨f', h9, h10, _, h11⟩ := gItem_eval hA hB hN f h.2.2.1
    obtain ⟨o, h12, h13, el, f'', rfl⟩ := collapseG_eval h4 (popBlock_eval hN t' _ h8) (popBlock_eval hN f' _ h10) (popBlock_plain f' (h11 h.2.2.2))
    refine ⟨_, by simp only [visitGenItem, h3, h7, h9, h12, bind, Except.bind, pure, Except.pure]; rfl, ?_, nonDecl rfl _,
      plainIf_one (by rintro _ _ _ _ _ h; cases h; rfl)⟩
    simp only [astItems, h13, Option.bind_eq_bind, Option.bind_some, pure, evGenItem]
  | .case sel l, h => by
    simp only [okGenItem] at h
    obtain ⟨s', h3, h4⟩ := exp_eval hA sel h.1
    obtain ⟨bs, bs', h5, h6, _, h7⟩ := gCases_eval hA hB hN l h.2.1
    obtain ⟨d, h8, h9⟩ := h7 h.2.2
    refine ⟨_, by simp only [visitGenItem, h3, h5, h8, bind, Except.bind, pure, Except.pure]; rfl, ?_, nonDecl rfl _,
      plainIf_one (by rintro _ _ _ _ _ h; cases h)⟩
    simp only [astItems, astItem, h4, h6, h9, Option.bind_eq_bind, Option.bind_some, pure, evGenItem]
  | .elab t, h => by
    simp only [okGenItem] at h
    obtain ⟨e, h1, h2⟩ := elab_item (B := B) (N := N) hA t h
    exact ⟨_, by simp only [visitGenItem, h1, bind, Except.bind, pure, Except.pure]; rfl,
      by simp only [astItems, h2, Option.bind_eq_bind, Option.bind_some, pure, evGenItem], nonDecl rfl _,
      plainIf_one (by rintro _ _ _ _ _ h; cases h)⟩
theorem gItem_eval (hA : Agrees A leaf) (hB : SAgrees A B) (hN : MAgrees N) : ∀ x : GItem, okGItem x →
    ∃ l, visitGItem x = .ok l ∧ astItems A B N leaf l = some (evGItem A B N x) ∧ declares l (gItemNames x) ∧ (isRegion x = false → plainIf l)
  | .item i, h => by
    simp only [okGItem] at h
    obtain ⟨l, h1, h2, h3, h4⟩ := genItem_eval hA hB hN i h
    exact ⟨l, by simp only [visitGItem, h1, bind, Except.bind, pure, Except.pure], by rw [evGItem]; exact h2, by rw [gItemNames]; exact h3,
      fun _ => h4⟩
  | .externTf, h => by simp only [okGItem] at h
  | .rand, h => by simp only [okGItem] at h
  | .region l, h => by
    simp only [okGItem] at h
    obtain ⟨r, h1, h2, h3⟩ := gItems_eval hA hB hN l h
    exact ⟨r.map markPreproc, by simp only [visitGItem, h1, bind, Except.bind, pure, Except.pure], by rw [mark_items, evGItem]; exact h2,
      by rw [gItemNames]; exact mark_declares r _ h3, fun h => by cases h⟩
  | .block pre label l e, h => by
    simp only [okGItem] at h
    obtain ⟨r, h1, h2, h3⟩ := gItems_eval hA hB hN l h.1
    obtain ⟨ls, h4, h5⟩ := genLabels_eval hA pre label e h.2.1 h.2.2.1 h.2.2.2.1 h.2.2.2.2
    refine ⟨_, by simp only [visitGItem, h1, h4, bind, Except.bind, pure, Except.pure]; rfl, ?_, nonDecl rfl _,
      fun _ => plainIf_one (by rintro _ _ _ _ _ h; cases h)⟩
    simp only [astItems, astItem, h2, h5, Option.map_some, Option.bind_eq_bind, Option.bind_some, pure, evGItem]
theorem gItems_eval (hA : Agrees A leaf) (hB : SAgrees A B) (hN : MAgrees N) : ∀ x : List GItem, okGItems x →
    ∃ l, visitGItems x = .ok l ∧ astItems A B N leaf l = some (evGItems A B N x) ∧ declares l (gItemsNames x)
  | [], _ => ⟨[], by simp only [visitGItems], by simp only [astItems, evGItems], fun o ho => by cases ho⟩
  | g :: l, h => by
    simp only [okGItems] at h
    obtain ⟨r, h1, h2, h3, _⟩ := gItem_eval hA hB hN g h.1
    obtain ⟨r', h4, h5, h6⟩ := gItems_eval hA hB hN l h.2
    exact ⟨r ++ r', by simp only [visitGItems, h1, h4, bind, Except.bind, pure, Except.pure], by rw [evGItems]; exact astItems_append r r' _ _ h2 h5,
      by rw [gItemsNames]; exact declares_append h3 h6⟩
theorem gCases_eval (hA : Agrees A leaf) (hB : SAgrees A B) (hN : MAgrees N) : ∀ x : List CaseGItem, okGCases x →
    ∃ bs bs', visitCaseGItems x = .ok bs ∧ astGBranches A B N leaf bs' = some (evGCases A B N x) ∧
      ((x.filter isGDefault).length = 0 → evGDefault A B N x = none ∧ ∀ d, splitCases multiDefaultGenMsg d bs = .ok (bs', d)) ∧
      ((x.filter isGDefault).length ≤ 1 → ∃ d', splitCases multiDefaultGenMsg .null bs = .ok (bs', d') ∧
        optStm d' (astItem A B N leaf d') = some (evGDefault A B N x))
  | [], _ => by
    refine ⟨[], [], by simp only [visitCaseGItems], by simp only [astGBranches, evGCases], ?_, ?_⟩
    · intro _; exact ⟨by simp only [evGDefault], fun d => by simp only [splitCases]⟩
    · intro _; exact ⟨.null, by simp only [splitCases], by simp only [optStm, evGDefault]⟩
  | .dflt s :: l, h => by
    simp only [okGCases] at h
    obtain ⟨r, h1, h2, _, _⟩ := gItem_eval hA hB hN s h.1
    obtain ⟨o, v, rfl, hv, ho⟩ := astItems_one r _ h2 (oneG_length s h.2.1)
    obtain ⟨bs, bs', h3, h4, h5, _⟩ := gCases_eval hA hB hN l h.2.2
    refine ⟨.mk .null o :: bs, bs', ?_, by simpa only [evGCases] using h4, ?_, ?_⟩
    · simp only [visitCaseGItems, visitCaseGItem, h1, oneObj, h3, bind, Except.bind, pure, Except.pure, List.cons_append, List.nil_append]
    · intro hh; simp [isGDefault] at hh
    · intro hh
      have hl : (l.filter isGDefault).length = 0 := by
        simp only [List.filter_cons, isGDefault, if_true, List.length_cons] at hh
        omega
      obtain ⟨_, h6⟩ := h5 hl
      refine ⟨o, by simp only [splitCases, h6], ?_⟩
      rw [optStm_item ho, evGDefault, hv, hN.one]
  | .exprs es s :: l, h => by
    simp only [okGCases] at h
    obtain ⟨r, h1, h2, _, _⟩ := gItem_eval hA hB hN s h.2.1
    obtain ⟨o, v, rfl, hv, ho⟩ := astItems_one r _ h2 (oneG_length s h.2.2.1)
    obtain ⟨bs, bs', h3, h4, h5, h6⟩ := gCases_eval hA hB hN l h.2.2.2
    obtain ⟨cs, h7, h8, h9⟩ := caseGExprs_eval hA o _ ho es h.1
    have hf : (CaseGItem.exprs es s :: l).filter isGDefault = l.filter isGDefault := by
      simp only [List.filter_cons, isGDefault, Bool.false_eq_true, if_false]
    rw [hf]
    refine ⟨cs ++ bs, cs ++ bs', ?_, ?_, ?_, ?_⟩
    · simp only [visitCaseGItems, visitCaseGItem, h1, oneObj, h3, h7, bind, Except.bind, pure, Except.pure]
    · rw [astGBranches_append cs bs' _ _ h8 h4, evGCases, hv, hN.one]
    · intro hh
      exact ⟨by rw [evGDefault]; exact (h5 hh).1, fun d => splitCases_append _ _ _ _ h9 _ _ ((h5 hh).2 d)⟩
    · intro hh
      obtain ⟨d', h10, h11⟩ := h6 hh
      exact ⟨d', splitCases_append _ _ _ _ h9 _ _ h10, by rw [evGDefault]; exact h11⟩
end

end Verif.Sv
