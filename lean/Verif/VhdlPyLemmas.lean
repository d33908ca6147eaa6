import Verif.ToPyObjLemmas
import Verif.Spec.VhdlPy
import Verif.Vhdl.Unit
/-!
# The objects of a VHDL file are convertible
-/
namespace Verif
open Spec

/-- Everything that a computation can return fulfils `P`. -/
def Post {α : Type} (P : α → Prop) (x : Except Exc α) : Prop := ∀ a, x = .ok a → P a

theorem post_bind {α β : Type} {P : α → Prop} {Q : β → Prop} {x : Except Exc α} {f : α → Except Exc β} (hx : Post P x) (hf : ∀ a, P a → Post Q (f a)) :
    Post Q (x >>= f) := by
  intro b h
  cases x with
  | error e => cases h
  | ok a => exact hf a (hx a rfl) b h

theorem post_pure {α : Type} {P : α → Prop} {a : α} (h : P a) : Post P (pure a : Except Exc α) := by
  intro b hb
  cases hb
  exact h

theorem post_ok {α : Type} {P : α → Prop} {a : α} (h : P a) : Post P (.ok a : Except Exc α) := post_pure h

theorem post_err {α : Type} {P : α → Prop} {e : Exc} : Post P (.error e : Except Exc α) := by
  intro b hb
  cases hb

theorem post_any {α : Type} {x : Except Exc α} : Post (fun _ => True) x := fun _ _ => trivial

/-! ## Expressions -/

theorem wfE_ne {e : Expr} (h : wfE e) : e ≠ .null := by
  rintro rfl
  simp only [wfE] at h

theorem wfEs_append : ∀ {l m : List Expr}, wfEs l → wfEs m → wfEs (l ++ m)
  | [], _, _, h => h
  | _ :: _, _, h, h' => ⟨h.1, wfEs_append h.2 h'⟩

theorem push_wf {e : Expr} (h : wfOpt e) : wfEs e.push := by
  rcases h with rfl | h
  · simp only [Expr.push, wfEs]
  · cases e <;> simp_all [Expr.push, wfE, wfEs]

theorem mkUn_wf {p : Option CodePos} {o : OpType} {a : Expr} (h : wfE a) : wfE (.mkUn p o a) := by
  simp only [Expr.mkUn, wfE, wfEs]; exact ⟨h, trivial⟩

theorem mkBin_wf {p : Option CodePos} {o : OpType} {a b : Expr} (ha : wfE a) (hb : wfE b) : wfE (.mkBin p a o b) := by
  simp only [Expr.mkBin, wfE]; exact wfEs_append (push_wf (.inr ha)) (push_wf (.inr hb))

theorem mkCall_wf {p : Option CodePos} {f : Expr} {l : List Expr} (hf : wfE f) (hl : wfEs l) : wfE (.mkCall p f l) := by
  simp only [Expr.mkCall, wfE, wfEs]; exact ⟨hf, hl⟩

theorem mkIndex_wf {p : Option CodePos} {f : Expr} {l : List Expr} (hf : wfE f) (hl : wfEs l) : wfE (.mkIndex p f l) := by
  simp only [Expr.mkIndex, wfE, wfEs]; exact ⟨hf, hl⟩

theorem mkTernary_wf {p : Option CodePos} {c t e : Expr} (hc : wfE c) (ht : wfE t) (he : wfOpt e) : wfE (.mkTernary p c t e) := by
  simp only [Expr.mkTernary, wfE]
  exact wfEs_append (l := [c, t]) ⟨hc, ht, trivial⟩ (push_wf he)

mutual
theorem clone_wf : ∀ {e : Expr}, wfE e → Post wfE e.clone
  | .null, h => by simp only [wfE] at h
  | .id .., _ => post_ok trivial
  | .int .., _ => post_ok trivial
  | .float .., _ => post_ok trivial
  | .str .., _ => post_ok trivial
  | .symb .., _ => post_ok trivial
  | .notImpl _, _ => by simp only [Expr.clone]; exact post_ok trivial
  | .arr _ l, h => by
    simp only [wfE] at h
    simp only [Expr.clone]
    exact post_bind (cloneList_wf h) fun _ h => post_pure (by simpa only [wfE] using h)
  | .op _ _ l, h => by
    simp only [wfE] at h
    simp only [Expr.clone]
    exact post_bind (cloneList_wf h) fun _ h => post_pure (by simpa only [wfE] using h)
  | .enumDef _ _ _ ns vs, h => by
    simp only [wfE] at h
    simp only [Expr.clone]
    exact post_bind (cloneListOpt_wf ns h) fun _ h => post_pure (by simpa only [wfE] using h)
  | .physDef _ _ r ns vs, h => by
    simp only [wfE] at h
    simp only [Expr.clone]
    exact post_bind (clone_wf h.1) fun _ h1 => post_bind (cloneListOpt_wf (ns.map some) h.2) fun _ h => post_pure (by simp only [wfE]; exact ⟨h1, h⟩)
  | .classDef .., _ => by simp only [Expr.clone]; exact post_err
theorem cloneList_wf : ∀ {l : List Expr}, wfEs l → Post wfEs (cloneList l)
  | [], _ => by simp only [cloneList]; exact post_ok trivial
  | e :: l, h => by
    simp only [cloneList]
    exact post_bind (clone_wf h.1) fun _ h1 => post_bind (cloneList_wf h.2) fun _ h2 => post_pure ⟨h1, h2⟩
theorem cloneListOpt_wf : ∀ (ns : List (Option Str)) {l : List Expr}, wfPs ns l → Post (wfPs ns) (cloneListOpt l)
  | ns, [], _ => by simp only [cloneListOpt]; exact post_ok (by cases ns <;> trivial)
  | [], e :: l, _ => fun r _ => by cases r <;> trivial
  | n :: ns, e :: l, h => by
    simp only [wfPs] at h
    cases e with
    | null =>
      simp only [cloneListOpt]
      exact post_bind (P := fun e => e = .null) (post_ok rfl) fun _ h1 => post_bind (cloneListOpt_wf ns h.2) fun _ h2 => post_pure ⟨.inl h1, h2⟩
    | _ =>
      simp only [cloneListOpt]
      exact post_bind (clone_wf (h.1.resolve_left (by simp))) fun _ h1 => post_bind (cloneListOpt_wf ns h.2) fun _ h2 => post_pure ⟨.inr h1, h2⟩
end

namespace Vhdl

theorem aggToParen_wf {e : Expr} (h : wfE e) : wfE (aggToParen e) := by
  unfold aggToParen
  split
  · exact h.1
  · exact h

theorem mkAggregate_wf {l : List Expr} (h : wfEs l) : wfE (mkAggregate l) := by
  unfold mkAggregate
  split
  · split
    · exact h
    · exact h.1
  · exact h

theorem nameLit_wf (n : NameLit) : Post wfE (visitNameLit n) := by
  cases n <;> simp only [visitNameLit]
  · exact post_ok trivial
  · exact post_bind post_any fun _ _ => post_pure trivial
  · exact post_bind post_any fun _ _ => post_pure trivial

theorem suffix_wf (s : Suffix) : Post wfE (visitSuffix s) := by
  cases s <;> simp only [visitSuffix]
  · exact nameLit_wf _
  · exact post_ok trivial

theorem dec_wf (t : Str) : Post wfE (visitDec t) := by
  unfold visitDec
  exact post_bind post_any fun v _ => by cases v <;> exact post_pure trivial

mutual
theorem name_wf : ∀ n : Name, Post wfE (visitName n)
  | .external => by simp only [visitName]; exact post_ok trivial
  | .lit l => by simp only [visitName]; exact nameLit_wf l
  | .slice n r => by simp only [visitName]; exact post_bind (name_wf n) fun _ h => post_bind (eRange_wf r) fun _ h' => post_pure (mkBin_wf h h')
  | .attr n _ d => by simp only [visitName]; exact post_bind (name_wf n) fun _ h => post_pure (mkBin_wf h trivial)
  | .dot n s => by simp only [visitName]; exact post_bind (name_wf n) fun _ h => post_bind (suffix_wf s) fun _ h' => post_pure (mkBin_wf h h')
  | .assoc n l => by simp only [visitName]; exact post_bind (name_wf n) fun _ h => post_bind (assocs_wf l) fun _ h' => post_pure (mkIndex_wf h h')
theorem eRange_wf : ∀ r : ERange, Post wfE (visitERange r)
  | .mk a _ b => by simp only [visitERange]; exact post_bind (simple_wf a) fun _ h => post_bind (simple_wf b) fun _ h' => post_pure (mkBin_wf h h')
theorem assocs_wf : ∀ l : List Assoc, Post wfEs (visitAssocs l)
  | [] => by simp only [visitAssocs]; exact post_ok trivial
  | a :: l => by simp only [visitAssocs]; exact post_bind (assoc_wf a) fun _ h => post_bind (assocs_wf l) fun _ h' => post_pure ⟨h, h'⟩
theorem assoc_wf : ∀ a : Assoc, Post wfE (visitAssoc a)
  | .pos a => by simp only [visitAssoc]; exact actual_wf a
  | .named f a => by simp only [visitAssoc]; exact post_bind (actual_wf a) fun _ h => post_bind (name_wf f) fun _ h' => post_pure (mkBin_wf h' h)
  | .namedConv f g a => by
    simp only [visitAssoc]
    exact post_bind (actual_wf a) fun _ h => post_bind (name_wf f) fun _ h' => post_bind (name_wf g) fun _ h'' =>
      post_pure (mkBin_wf (mkCall_wf h' ⟨h'', trivial⟩) h)
theorem actual_wf : ∀ a : Actual, Post wfE (visitActual a)
  | .desig d => by simp only [visitActual]; exact desig_wf d
  | .conv n d => by simp only [visitActual]; exact post_bind (desig_wf d) fun _ h => post_bind (name_wf n) fun _ h' => post_pure (mkCall_wf h' ⟨h, trivial⟩)
theorem desig_wf : ∀ d : Desig, Post wfE (visitDesig d)
  | .opn => by simp only [visitDesig]; exact post_ok trivial
  | .sub s => by simp only [visitDesig]; exact subInd_wf s
  | .expr e => by simp only [visitDesig]; exact expression_wf e
theorem subInd_wf : ∀ s : SubInd, Post wfE (visitSubInd s)
  | .mk r tm c => by
    simp only [visitSubInd]
    exact post_bind (resol_wf r) fun r hr => post_bind (name_wf tm) fun _ h => post_bind (constr_wf _ h c) fun _ h' => by
      cases r with
      | none => exact post_pure h'
      | some r => exact post_pure (mkBin_wf (hr r rfl) h')
theorem resol_wf : ∀ r : Resol, Post (fun r => ∀ e, r = some e → wfE e) (visitResol r)
  | .none => by simp only [visitResol]; exact post_ok (by simp)
  | .name n => by simp only [visitResol]; exact post_bind (name_wf n) fun _ h => post_pure (by rintro _ ⟨⟩; exact h)
  | .element => by simp only [visitResol]; exact post_ok (by rintro _ ⟨⟩; trivial)
theorem constr_wf (e : Expr) (he : wfE e) : ∀ c : Constr, Post wfE (visitConstr e c)
  | .none => by simp only [visitConstr]; exact post_ok he
  | .range r => by simp only [visitConstr]; exact post_bind (range_wf r) fun _ h => post_pure (mkBin_wf he h)
  | .array a => by simp only [visitConstr]; exact arrC_wf e he a
  | .record => by simp only [visitConstr]; exact post_ok trivial
theorem range_wf : ∀ r : Range, Post wfE (visitRange r)
  | .attr n _ d => by simp only [visitRange]; exact post_bind (name_wf n) fun _ h => post_pure (mkBin_wf h trivial)
  | .expl r => by simp only [visitRange]; exact eRange_wf r
theorem arrC_wf (e : Expr) (he : wfE e) : ∀ a : ArrC, Post wfE (visitArrC e a)
  | .index l c => by simp only [visitArrC]; exact post_bind (discrs_wf l) fun _ h => elemC_wf _ (mkIndex_wf he h) c
  | .opn c => by simp only [visitArrC]; exact elemC_wf (.mkBin none e .INDEX (.symb none .ALL)) (mkBin_wf he trivial) c
theorem elemC_wf (e : Expr) (he : wfE e) : ∀ c : ElemC, Post wfE (visitElemC e c)
  | .none => by simp only [visitElemC]; exact post_ok he
  | .array a => by simp only [visitElemC]; exact arrC_wf e he a
  | .record => by simp only [visitElemC]; exact post_ok trivial
theorem discrs_wf : ∀ l : List Discr, Post wfEs (visitDiscrs l)
  | [] => by simp only [visitDiscrs]; exact post_ok trivial
  | a :: l => by simp only [visitDiscrs]; exact post_bind (discr_wf a) fun _ h => post_bind (discrs_wf l) fun _ h' => post_pure ⟨h, h'⟩
theorem discr_wf : ∀ d : Discr, Post wfE (visitDiscr d)
  | .sub s => by simp only [visitDiscr]; exact subInd_wf s
  | .range r => by simp only [visitDiscr]; exact range_wf r
theorem expression_wf : ∀ e : Expression, Post wfE (visitExpression e)
  | .cond p => by simp only [visitExpression]; exact post_bind (primary_wf p) fun _ h => post_pure (aggToParen_wf h)
  | .simple s => by simp only [visitExpression]; exact simple_wf s
  | .shift a o b => by simp only [visitExpression]; exact post_bind (expression_wf a) fun _ h => post_bind (expression_wf b) fun _ h' => post_pure (mkBin_wf h h')
  | .rel a o b => by simp only [visitExpression]; exact post_bind (expression_wf a) fun _ h => post_bind (expression_wf b) fun _ h' => post_pure (mkBin_wf h h')
  | .logic a o b => by simp only [visitExpression]; exact post_bind (expression_wf a) fun _ h => post_bind (expression_wf b) fun _ h' => post_pure (mkBin_wf h h')
theorem simple_wf : ∀ s : Simple, Post wfE (visitSimple s)
  | .prim p => by simp only [visitSimple]; exact primary_wf p
  | .pow a b => by
    simp only [visitSimple]
    exact post_bind (primary_wf a) fun _ h => post_bind (primary_wf b) fun _ h' => post_pure (mkBin_wf (aggToParen_wf h) (aggToParen_wf h'))
  | .abs s => by simp only [visitSimple]; exact post_bind (simple_wf s) fun _ h => post_pure (mkUn_wf (aggToParen_wf h))
  | .not s => by simp only [visitSimple]; exact post_bind (simple_wf s) fun _ h => post_pure (mkUn_wf (aggToParen_wf h))
  | .logic o s => by simp only [visitSimple]; exact post_bind post_any fun _ _ => post_bind (simple_wf s) fun _ h => post_pure (mkUn_wf (aggToParen_wf h))
  | .sign o s => by simp only [visitSimple]; exact post_bind post_any fun _ _ => post_bind (simple_wf s) fun _ h => post_pure (mkUn_wf (aggToParen_wf h))
  | .mul a o b => by
    simp only [visitSimple]
    exact post_bind (simple_wf a) fun _ h => post_bind (simple_wf b) fun _ h' => post_pure (mkBin_wf (aggToParen_wf h) (aggToParen_wf h'))
  | .add a o b => by
    simp only [visitSimple]
    exact post_bind (simple_wf a) fun _ h => post_bind (simple_wf b) fun _ h' => post_pure (mkBin_wf (aggToParen_wf h) (aggToParen_wf h'))
theorem primary_wf : ∀ p : Primary, Post wfE (visitPrimary p)
  | .name n => by simp only [visitPrimary]; exact name_wf n
  | .dec t => by simp only [visitPrimary]; exact dec_wf t
  | .decUnit t n => by simp only [visitPrimary]; exact post_bind (name_wf n) fun _ h => post_bind (dec_wf t) fun _ h' => post_pure (mkBin_wf h' h)
  | .based t => by simp only [visitPrimary]; exact post_bind post_any fun _ _ => post_pure trivial
  | .basedUnit t n => by simp only [visitPrimary]; exact post_bind (name_wf n) fun _ h => post_bind post_any fun _ _ => post_pure (mkBin_wf trivial h)
  | .bits t => by simp only [visitPrimary]; exact post_bind post_any fun _ _ => post_pure trivial
  | .null => by simp only [visitPrimary]; exact post_ok trivial
  | .newSub s => by simp only [visitPrimary]; exact post_bind (subInd_wf s) fun _ h => post_pure (mkBin_wf trivial h)
  | .newQual t l => by
    simp only [visitPrimary]
    exact post_bind (name_wf t) fun _ h => post_bind (elems_wf l) fun _ h' => post_pure (mkBin_wf trivial (mkBin_wf h (mkAggregate_wf h')))
  | .agg l => by simp only [visitPrimary]; exact post_bind (elems_wf l) fun _ h => post_pure (mkAggregate_wf h)
  | .qual t l => by
    simp only [visitPrimary]
    exact post_bind (name_wf t) fun _ h => post_bind (elems_wf l) fun _ h' => post_pure (mkBin_wf h (mkAggregate_wf h'))
theorem elems_wf : ∀ l : List Elem, Post wfEs (visitElems l)
  | [] => by simp only [visitElems]; exact post_ok trivial
  | a :: l => by simp only [visitElems]; exact post_bind (elem_wf a) fun _ h => post_bind (elems_wf l) fun _ h' => post_pure ⟨h, h'⟩
theorem elem_wf : ∀ e : Elem, Post wfE (visitElem e)
  | .pos e => by simp only [visitElem]; exact expression_wf e
  | .named l e => by
    simp only [visitElem]
    exact post_bind (expression_wf e) fun _ h => post_bind (choices_wf l) fun r h' => by
      cases r with
      | nil => exact post_err
      | cons c r => exact post_pure (mkBin_wf h'.1 h)
theorem choices_wf : ∀ l : List Choice, Post wfEs (visitChoices l)
  | [] => by simp only [visitChoices]; exact post_ok trivial
  | a :: l => by simp only [visitChoices]; exact post_bind (choice_wf a) fun _ h => post_bind (choices_wf l) fun _ h' => post_pure ⟨h, h'⟩
theorem choice_wf : ∀ c : Choice, Post wfE (visitChoice c)
  | .discr d => by simp only [visitChoice]; exact discr_wf d
  | .simple s => by simp only [visitChoice]; exact simple_wf s
  | .others => by simp only [visitChoice]; exact post_ok trivial
end

theorem waveTail_wf : ∀ (l : List WaveElem) {e : Expr}, wfE e → Post wfE (visitWaveTail e l)
  | [], _, h => by simp only [visitWaveTail]; exact post_ok h
  | w :: l, _, h => by simp only [visitWaveTail]; exact post_bind (expression_wf w.value) fun _ h' => waveTail_wf l (mkBin_wf h h')

theorem waveform_wf (w : Waveform) : Post wfE (visitWaveform w) := by
  cases w <;> simp only [visitWaveform]
  · exact post_ok trivial
  · exact post_bind (expression_wf _) fun _ h => waveTail_wf _ h

theorem condLoop_wf (b : Bool) : ∀ (ws : List Waveform) (cs : List Expression) {e : Expr}, wfOpt e → Post wfOpt (condLoop b ws cs e)
  | [], _, _, h => by simp only [condLoop]; exact post_ok h
  | w :: ws, cs, e, h => by
    simp only [condLoop]
    refine post_bind (waveform_wf w) fun we hw => ?_
    split
    · exact condLoop_wf _ ws cs (.inr hw)
    · cases cs with
      | nil => exact post_err
      | cons c cs => exact post_bind (expression_wf c) fun _ hc => condLoop_wf b ws cs (.inr (mkTernary_wf hc hw h))

theorem condWaves_wf (c : CondWaves) : Post wfOpt (visitCondWaves c) := condLoop_wf _ _ _ (.inl rfl)

theorem procCall_wf (n : Name) : Post wfE (visitProcCall n) := by
  unfold visitProcCall
  refine post_bind (name_wf n) fun e h => ?_
  split
  · exact post_pure h
  · exact post_pure h
  · exact post_pure (mkCall_wf h trivial)

/-! ## Statements -/

theorem mkAssign_wf {d s : Expr} {b : Bool} (hd : wfOpt d) (hs : wfOpt s) : Post wf (mkAssign d s .null none b) := by
  unfold mkAssign
  split
  · exact post_err
  · exact post_err
  · rename_i h1 h2
    exact post_ok ⟨hd.resolve_left h1, hs.resolve_left h2, .inl rfl, trivial⟩

theorem mapInfo_wf (f : StmInfo → StmInfo) (o : Obj) : wf (o.mapInfo f) ↔ wf o := by
  cases o <;> simp only [Obj.mapInfo, wf]

theorem pushLabel_wf {l : Str} {o : Obj} (h : wf o) : wf (pushLabel l o) := (mapInfo_wf _ o).2 h

theorem appendLabel_wf {l : Option Str} {o : Obj} (h : wf o) : wf (appendLabel l o) := by
  cases l
  · exact h
  · exact (mapInfo_wf _ o).2 h

theorem target_wf (t : Target) : Post wfE (visitTarget t) := by
  cases t <;> simp only [visitTarget]
  · exact name_wf _
  · exact post_bind (elems_wf _) fun _ h => post_pure (mkAggregate_wf h)

theorem opt_wf (e : Option Expression) : Post wfEs (visitOpt e) := by
  cases e <;> simp only [visitOpt]
  · exact post_ok trivial
  · exact post_bind (expression_wf _) fun _ h => post_pure ⟨h, trivial⟩

theorem until_wf (e : Option Expression) : Post wfEs (visitUntil e) := by
  cases e <;> simp only [visitUntil]
  · exact post_ok trivial
  · exact post_bind (expression_wf _) fun _ h => post_pure ⟨mkUn_wf h, trivial⟩

theorem names_wf : ∀ l : List Name, Post wfEs (visitNames l)
  | [] => by simp only [visitNames]; exact post_ok trivial
  | a :: l => by simp only [visitNames]; exact post_bind (name_wf a) fun _ h => post_bind (names_wf l) fun _ h' => post_pure ⟨h, h'⟩

theorem nextOrExit_wf (fn : Str) (l : Option Str) (c : Option Expression) : Post wf (visitNextOrExit fn l c) := by
  unfold visitNextOrExit
  exact post_bind (opt_wf c) fun _ h => post_pure (mkCall_wf trivial ⟨by cases l <;> trivial, h⟩)

theorem assertion_wf (c : Expression) (r s : Option Expression) : Post wf (visitAssertion c r s) := by
  unfold visitAssertion
  exact post_bind (expression_wf c) fun _ h1 => post_bind (opt_wf r) fun _ h2 => post_bind (opt_wf s) fun _ h3 =>
    post_pure (mkCall_wf trivial ⟨h1, wfEs_append h2 h3⟩)

theorem report_wf (e : Expression) (s : Option Expression) : Post wf (visitReport e s) := by
  unfold visitReport
  exact post_bind (expression_wf e) fun _ h1 => post_bind (opt_wf s) fun _ h2 => post_pure (mkCall_wf trivial ⟨h1, h2⟩)

theorem wait_wf (l : List Name) (u f : Option Expression) : Post wf (visitWait l u f) := by
  unfold visitWait
  exact post_bind (names_wf l) fun _ h1 => post_bind (until_wf u) fun _ h2 => post_bind (opt_wf f) fun _ h3 =>
    post_pure (by simp only [wf]; exact wfEs_append (wfEs_append h1 h2) h3)

/-- Convertible, or the null pointer. -/
def wfN (o : Obj) : Prop := o = .null ∨ wf o

theorem post_mono {α : Type} {P Q : α → Prop} {x : Except Exc α} (hx : Post P x) (h : ∀ a, P a → Q a) : Post Q x := fun a ha => h a (hx a ha)

theorem sigAssign_wf (a : SigAssign) (h : ¬ nullSig a) : Post wf (visitSigAssign a) := by
  cases a <;> simp only [visitSigAssign, nullSig] at h ⊢
  · exact post_bind (target_wf _) fun _ h1 => post_bind (waveform_wf _) fun _ h2 => mkAssign_wf (.inr h1) (.inr h2)
  · exact post_bind (target_wf _) fun _ h1 => post_bind (expression_wf _) fun _ h2 => mkAssign_wf (.inr h1) (.inr h2)
  · exact post_bind (target_wf _) fun _ h1 => mkAssign_wf (.inr h1) (.inr trivial)
  · exact post_bind (target_wf _) fun _ h1 => post_bind (condWaves_wf _) fun _ h2 => mkAssign_wf (.inr h1) h2
  · exact post_bind (target_wf _) fun _ h1 => mkAssign_wf (.inr h1) (.inr trivial)
  all_goals exact absurd trivial h

theorem sigAssign_wfN (a : SigAssign) : Post wfN (visitSigAssign a) := by
  by_cases h : nullSig a
  · cases a <;> simp only [nullSig] at h <;> simp only [visitSigAssign] <;> exact post_ok (.inl rfl)
  · exact post_mono (sigAssign_wf a h) fun _ => .inr

theorem varAssign_wf (a : VarAssign) : Post wf (visitVarAssign a) := by
  cases a <;> simp only [visitVarAssign]
  · exact post_bind (target_wf _) fun _ h1 => post_bind (expression_wf _) fun _ h2 => mkAssign_wf (.inr h1) (.inr h2)
  · exact post_bind (target_wf _) fun _ h1 => mkAssign_wf (.inr h1) (.inr trivial)
  · exact post_bind (expression_wf _) fun _ h1 => mkAssign_wf (.inr h1) (.inr trivial)

theorem return_wf (e : Option Expression) : Post wf (visitReturn e) := by
  cases e <;> simp only [visitReturn]
  · exact post_ok (.inl rfl)
  · exact post_bind (expression_wf _) fun _ h => post_pure (.inr h)

theorem wfBs_append : ∀ {l m : List Branch}, wfBs l → wfBs m → wfBs (l ++ m)
  | [], _, _, h => h
  | .mk _ _ :: _, _, h, h' => ⟨h.1, h.2.1, wfBs_append h.2.2 h'⟩

theorem addChoices_wf {b : Obj} (hb : wf b) : ∀ (l : List Expr) (acc : List Branch × Obj), wfEs l → wfBs acc.1 → wfN acc.2 →
    Post (fun r => wfBs r.1 ∧ wfN r.2) (addChoices b l acc)
  | [], _, _, h1, h2 => by simp only [addChoices]; exact post_ok ⟨h1, h2⟩
  | c :: l, acc, hl, h1, h2 => by
    simp only [addChoices]
    refine post_bind (P := fun r => wfBs r.1 ∧ wfN r.2) ?_ fun r h => addChoices_wf hb l r hl.2 h.1 h.2
    unfold addChoice
    split
    · split
      · exact post_ok ⟨h1, .inr hb⟩
      · exact post_err
    · exact post_ok ⟨wfBs_append h1 ⟨hl.1, hb, trivial⟩, h2⟩

theorem loop_wf {b : Obj} (hb : wf b) (i : Iter) : Post wf (mkLoop i b) := by
  cases i <;> simp only [mkLoop]
  · exact post_ok ⟨trivial, hb⟩
  · exact post_bind (expression_wf _) fun _ h => post_pure ⟨h, hb⟩
  · exact post_bind (discr_wf _) fun _ h => post_pure ⟨⟨trivial, trivial⟩, h, hb⟩

mutual
theorem seq_wfN : ∀ s : Seq, Post wfN (visitSeq s)
  | .mk label s => by
    simp only [visitSeq]
    refine post_bind (seqKind_wfN s) fun o h => ?_
    cases label with
    | none => exact post_pure h
    | some l =>
      simp only
      split
      · exact post_err
      · rename_i ho; exact post_pure (.inr (pushLabel_wf (h.resolve_left ho)))
theorem seqsNN_wf : ∀ l : List Seq, Post wfs (visitSeqsNN l)
  | [] => by simp only [visitSeqsNN]; exact post_ok trivial
  | s :: l => by
    simp only [visitSeqsNN]
    refine post_bind (seq_wfN s) fun o h => ?_
    split
    · exact post_err
    · rename_i ho; exact post_bind (seqsNN_wf l) fun _ h' => post_pure ⟨h.resolve_left ho, h'⟩
theorem seqKind_wfN : ∀ s : SeqKind, Post wfN (visitSeqKind s)
  | .wait on u f => by simp only [visitSeqKind]; exact post_mono (wait_wf on u f) fun _ => .inr
  | .assert_ c r s => by simp only [visitSeqKind]; exact post_mono (assertion_wf c r s) fun _ => .inr
  | .report e s => by simp only [visitSeqKind]; exact post_mono (report_wf e s) fun _ => .inr
  | .sig a => by simp only [visitSeqKind]; exact sigAssign_wfN a
  | .var a => by simp only [visitSeqKind]; exact post_mono (varAssign_wf a) fun _ => .inr
  | .call n => by simp only [visitSeqKind]; exact post_bind (procCall_wf n) fun _ h => post_pure (.inr h)
  | .if_ c t el f endl => by
    simp only [visitSeqKind]
    exact post_bind (expression_wf c) fun _ h1 => post_bind (seqsNN_wf t) fun _ h2 => post_bind (elsIfs_wf el) fun _ h3 =>
      post_bind (seqElse_wf f) fun _ h4 => post_pure (.inr (appendLabel_wf ⟨h1, h2, h3, h4⟩))
  | .case_ _ e alts endl => by
    simp only [visitSeqKind]
    exact post_bind (expression_wf e) fun _ h1 => post_bind (alts_wf alts ([], .null) trivial (.inl rfl)) fun _ h2 =>
      post_pure (.inr (appendLabel_wf ⟨h1, h2.1, h2.2⟩))
  | .loop it body endl => by
    simp only [visitSeqKind]
    exact post_bind (seqsNN_wf body) fun _ h1 => post_bind (loop_wf (by simp only [wf]; exact h1) it) fun _ h2 => post_pure (.inr (appendLabel_wf h2))
  | .next l c => by simp only [visitSeqKind]; exact post_mono (nextOrExit_wf _ l c) fun _ => .inr
  | .exit l c => by simp only [visitSeqKind]; exact post_mono (nextOrExit_wf _ l c) fun _ => .inr
  | .ret e => by simp only [visitSeqKind]; exact post_mono (return_wf e) fun _ => .inr
  | .null_ => by simp only [visitSeqKind]; exact post_ok (.inr trivial)
theorem elsIfs_wf : ∀ l : List ElsIf, Post wfBs (visitElsIfs l)
  | [] => by simp only [visitElsIfs]; exact post_ok trivial
  | .mk c l :: r => by
    simp only [visitElsIfs]
    exact post_bind (expression_wf c) fun _ h1 => post_bind (seqsNN_wf l) fun _ h2 => post_bind (elsIfs_wf r) fun _ h3 => post_pure ⟨h1, h2, h3⟩
theorem seqElse_wf : ∀ f : SeqElse, Post wfN (visitSeqElse f)
  | .none => by simp only [visitSeqElse]; exact post_ok (.inl rfl)
  | .some l => by simp only [visitSeqElse]; exact post_bind (seqsNN_wf l) fun _ h => post_pure (.inr h)
theorem alts_wf : ∀ (l : List CaseAlt) (acc : List Branch × Obj), wfBs acc.1 → wfN acc.2 → Post (fun r => wfBs r.1 ∧ wfN r.2) (visitAlts l acc)
  | [], _, h1, h2 => by simp only [visitAlts]; exact post_ok ⟨h1, h2⟩
  | .mk ch l :: r, acc, h1, h2 => by
    simp only [visitAlts]
    refine post_bind (choices_wf ch) fun c hc => ?_
    refine post_bind (P := fun r => wfBs r.1 ∧ wfN r.2) ?_ fun a h => alts_wf r a h.1 h.2
    cases c with
    | nil => exact post_ok ⟨h1, h2⟩
    | cons c cs => exact post_bind (seqsNN_wf l) fun _ hl => addChoices_wf (by simp only [wf]; exact hl) _ _ hc h1 h2
end

theorem seq_wf (s : Seq) (hs : ¬ nullSeq s) : Post wf (visitSeq s) := by
  obtain ⟨label, s⟩ := s
  cases label with
  | none =>
    simp only [visitSeq]
    refine post_bind (P := wf) ?_ fun o h => post_pure h
    cases s with
    | sig a => simp only [visitSeqKind]; exact sigAssign_wf a hs
    | wait on u f => simp only [visitSeqKind]; exact wait_wf on u f
    | assert_ c r s => simp only [visitSeqKind]; exact assertion_wf c r s
    | report e s => simp only [visitSeqKind]; exact report_wf e s
    | var a => simp only [visitSeqKind]; exact varAssign_wf a
    | call n => simp only [visitSeqKind]; exact post_bind (procCall_wf n) fun _ h => post_pure h
    | if_ c t el f endl =>
      simp only [visitSeqKind]
      exact post_bind (expression_wf c) fun _ h1 => post_bind (seqsNN_wf t) fun _ h2 => post_bind (elsIfs_wf el) fun _ h3 =>
        post_bind (seqElse_wf f) fun _ h4 => post_pure (appendLabel_wf ⟨h1, h2, h3, h4⟩)
    | case_ _ e alts endl =>
      simp only [visitSeqKind]
      exact post_bind (expression_wf e) fun _ h1 => post_bind (alts_wf alts ([], .null) trivial (.inl rfl)) fun _ h2 =>
        post_pure (appendLabel_wf ⟨h1, h2.1, h2.2⟩)
    | loop it body endl =>
      simp only [visitSeqKind]
      exact post_bind (seqsNN_wf body) fun _ h1 => post_bind (loop_wf (by simp only [wf]; exact h1) it) fun _ h2 => post_pure (appendLabel_wf h2)
    | next l c => simp only [visitSeqKind]; exact nextOrExit_wf _ l c
    | exit l c => simp only [visitSeqKind]; exact nextOrExit_wf _ l c
    | ret e => simp only [visitSeqKind]; exact return_wf e
    | null_ => simp only [visitSeqKind]; exact post_ok trivial
  | some l =>
    simp only [visitSeq]
    refine post_bind (seqKind_wfN s) fun o h => ?_
    split
    · exact post_err
    · rename_i ho; exact post_pure (pushLabel_wf (h.resolve_left ho))

theorem seqs_wf : ∀ l : List Seq, (∀ s ∈ l, ¬ nullSeq s) → Post wfs (visitSeqs l)
  | [], _ => by simp only [visitSeqs]; exact post_ok trivial
  | s :: l, h => by
    simp only [visitSeqs]
    exact post_bind (seq_wf s (h s (by simp))) fun _ h1 => post_bind (seqs_wf l fun x hx => h x (by simp [hx])) fun _ h2 => post_pure ⟨h1, h2⟩

/-! ## Declarations -/

theorem init_wf (e : Option Expression) : Post wfOpt (visitInit e) := by
  cases e <;> simp only [visitInit]
  · exact post_ok (.inl rfl)
  · exact post_mono (expression_wf _) fun _ => .inr

theorem cloneOpt_wf {e : Expr} (h : wfOpt e) : Post wfOpt (cloneOpt e) := by
  rcases h with rfl | h
  · exact post_ok (.inl rfl)
  · have : cloneOpt e = e.clone := by cases e <;> first | rfl | simp only [wfE] at h
    rw [this]
    exact post_mono (clone_wf h) fun _ => .inr

theorem cloneVars_wf {t v : Expr} (ht : wfE t) (hv : wfOpt v) : ∀ l : List Str, Post (fun l => ∀ d ∈ l, wfId d) (cloneVars t v l)
  | [] => by simp only [cloneVars]; exact post_ok (by simp)
  | n :: l => by
    simp only [cloneVars]
    exact post_bind (clone_wf ht) fun _ h1 => post_bind (cloneOpt_wf hv) fun _ h2 => post_bind (cloneVars_wf ht hv l) fun _ h3 => post_pure (by
      simp only [List.mem_cons, forall_eq_or_imp]
      exact ⟨⟨.inr h1, h2, by simp⟩, h3⟩)

theorem extractVars_wf (v : VarList) : Post (fun l => ∀ d ∈ l, wfId d) (extractVars v) := by
  unfold extractVars
  refine post_bind (subInd_wf v.type) fun _ h1 => post_bind (init_wf v.init) fun _ h2 => ?_
  split
  · exact post_pure (by simp)
  · exact post_bind (cloneVars_wf h1 h2 _) fun _ h3 => post_pure (by
      simp only [List.mem_cons, forall_eq_or_imp]
      exact ⟨⟨.inr h1, h2, by simp⟩, h3⟩)

theorem mode_known (m : Option Mode) : visitMode m ≠ .UNKNOWN := by
  rcases m with _ | m
  · simp [visitMode]
  · cases m <;> simp [visitMode]

theorem intf_wf (i : Intf) : Post (fun l => ∀ d ∈ l, wfId d) (visitIntf i) := by
  cases i <;> simp only [visitIntf]
  · exact post_bind (extractVars_wf _) fun _ h => post_pure (by
      simp only [List.mem_map]; rintro _ ⟨d, hd, rfl⟩; exact ⟨(h d hd).1, (h d hd).2.1, (h d hd).2.2⟩)
  · exact post_bind (extractVars_wf _) fun _ h => post_pure (by
      simp only [List.mem_map]; rintro _ ⟨d, hd, rfl⟩; exact ⟨(h d hd).1, (h d hd).2.1, mode_known _⟩)
  · exact post_bind (extractVars_wf _) fun _ h => post_pure (by
      simp only [List.mem_map]; rintro _ ⟨d, hd, rfl⟩; exact ⟨(h d hd).1, (h d hd).2.1, mode_known _⟩)
  all_goals exact post_ok (by simp)

theorem intfs_wf : ∀ l : List Intf, Post (fun l => ∀ d ∈ l, wfId d) (visitIntfs l)
  | [] => by simp only [visitIntfs]; exact post_ok (by simp)
  | i :: l => by
    simp only [visitIntfs]
    exact post_bind (intf_wf i) fun _ h1 => post_bind (intfs_wf l) fun _ h2 => post_pure (by
      simp only [List.mem_append]; rintro d (h | h)
      · exact h1 d h
      · exact h2 d h)

theorem intfsH_wf (h : Bool) (l : List Intf) : Post (fun l => ∀ d ∈ l, wfId d) (visitIntfsH h l) := by
  unfold visitIntfsH
  split
  · exact post_ok (by simp)
  · exact intfs_wf l

theorem enumLits_wf : ∀ l : List EnumLit, Post (fun r => wfPs r.1 r.2) (visitEnumLits l)
  | [] => by simp only [visitEnumLits]; exact post_ok trivial
  | .ident _ :: l => by simp only [visitEnumLits]; exact post_bind (enumLits_wf l) fun _ h => post_pure ⟨.inl rfl, h⟩
  | .chr _ :: l => by simp only [visitEnumLits]; exact post_bind post_any fun _ _ => post_bind (enumLits_wf l) fun _ h => post_pure ⟨.inr trivial, h⟩

theorem physLit_wf (p : PhysLit) : Post wfE (visitPhysLit p) := by
  cases p <;> simp only [visitPhysLit]
  · exact name_wf _
  · exact post_bind (name_wf _) fun _ h => post_bind (dec_wf _) fun _ h' => post_pure (mkBin_wf h' h)
  · exact post_bind (name_wf _) fun _ h => post_bind post_any fun _ _ => post_pure (mkBin_wf trivial h)

theorem units_wf : ∀ l : List (Str × PhysLit), Post wfEs (visitUnits l)
  | [] => by simp only [visitUnits]; exact post_ok trivial
  | (_, p) :: l => by simp only [visitUnits]; exact post_bind (physLit_wf p) fun _ h => post_bind (units_wf l) fun _ h' => post_pure ⟨h, h'⟩

theorem wfPs_of_wfEs : ∀ (ns : List (Option Str)) {l : List Expr}, wfEs l → wfPs ns l
  | [], [], _ => trivial
  | [], _ :: _, _ => trivial
  | _ :: _, [], _ => trivial
  | _ :: ns, _ :: _, h => ⟨.inr h.1, wfPs_of_wfEs ns h.2⟩

theorem indexTypes_wf : ∀ l : List Name, Post wfEs (visitIndexTypes l)
  | [] => by simp only [visitIndexTypes]; exact post_ok trivial
  | n :: l => by simp only [visitIndexTypes]; exact post_bind (name_wf n) fun _ h => post_bind (indexTypes_wf l) fun _ h' => post_pure ⟨mkBin_wf h trivial, h'⟩

theorem members_wf : ∀ l : List (List Str × SubInd), Post (fun l => ∀ d ∈ l, wfId d) (visitMembers l)
  | [] => by simp only [visitMembers]; exact post_ok (by simp)
  | (_, _) :: l => by
    simp only [visitMembers]
    exact post_bind (extractVars_wf _) fun _ h1 => post_bind (members_wf l) fun _ h2 => post_pure (by
      simp only [List.mem_append]; rintro d (h | h)
      · exact h1 d h
      · exact h2 d h)

theorem typeDef_wf' {n : Str} {e : Expr} (h : wfOpt e) : wf (typeDef n e) := ⟨.inr trivial, h, by simp⟩

theorem typeDef_wf (n : Str) (t : TypeDef) : Post wf (visitTypeDef n t) := by
  cases t <;> simp only [visitTypeDef]
  · exact post_bind (enumLits_wf _) fun _ h => post_pure (typeDef_wf' (.inr h))
  · exact post_bind (range_wf _) fun _ h => post_pure (typeDef_wf' (.inr (mkUn_wf h)))
  · exact post_bind (range_wf _) fun _ h => post_bind (units_wf _) fun _ h' => post_pure (typeDef_wf' (.inr ⟨mkUn_wf h, .inl rfl, wfPs_of_wfEs _ h'⟩))
  · exact post_bind (subInd_wf _) fun _ h => post_bind (indexTypes_wf _) fun _ h' => post_pure (typeDef_wf' (.inr ⟨h, h'⟩))
  · exact post_bind (subInd_wf _) fun _ h => post_bind (discrs_wf _) fun _ h' => post_pure (typeDef_wf' (.inr (mkIndex_wf h h')))
  · exact post_bind (members_wf _) fun _ h => post_pure (by simp only [wf]; exact h)
  all_goals exact post_ok (typeDef_wf' (.inr trivial))

theorem suffixes_wf : ∀ (l : List Suffix) {e : Expr}, wfE e → Post wfE (visitSuffixes e l)
  | [], _, h => by simp only [visitSuffixes]; exact post_ok h
  | s :: l, _, h => by simp only [visitSuffixes]; exact post_bind (suffix_wf s) fun _ h' => suffixes_wf l (mkBin_wf h h')

mutual
theorem flattenDot_wf : ∀ {e : Expr}, wfE e → wfEs (flattenDot e)
  | .op p o l, h => by
    simp only [flattenDot]
    split
    · exact flattenDots_wf h
    · exact ⟨h, trivial⟩
  | .null, h => by simp only [wfE] at h
  | .id .., _ | .int .., _ | .float .., _ | .str .., _ | .symb .., _ | .notImpl _, _ => by simp [flattenDot, wfEs, wfE]
  | .arr _ _, h | .enumDef .., h | .physDef .., h | .classDef .., h => by simp only [flattenDot]; exact ⟨h, trivial⟩
theorem flattenDots_wf : ∀ {l : List Expr}, wfEs l → wfEs (flattenDots l)
  | [], _ => by simp only [flattenDots]; trivial
  | _ :: _, h => by simp only [flattenDots]; exact wfEs_append (flattenDot_wf h.1) (flattenDots_wf h.2)
end

theorem use_wf : ∀ l : List SelName, Post wfs (visitUse l)
  | [] => by simp only [visitUse]; exact post_ok trivial
  | n :: l => by
    simp only [visitUse]
    exact post_bind (suffixes_wf n.rest (e := .id none n.head) trivial) fun _ h => post_bind (use_wf l) fun _ h' => post_pure ⟨flattenDot_wf h, h'⟩

theorem subSpec_wf (s : SubSpec) : Post (fun f => (∀ d ∈ f.params, wfId d) ∧ wfOpt f.ret) (visitSubSpec s) := by
  cases s <;> simp only [visitSubSpec]
  · exact post_bind (intfs_wf _) fun _ h => post_pure ⟨h, .inl rfl⟩
  · exact post_bind (name_wf _) fun _ h => post_bind (intfs_wf _) fun _ h' => post_pure ⟨h', .inr h⟩

theorem aliasType_wf (t : Option SubInd) : Post wfOpt (visitAliasType t) := by
  cases t <;> simp only [visitAliasType]
  · exact post_ok (.inl rfl)
  · exact post_mono (subInd_wf _) fun _ => .inr

theorem wfs_append : ∀ {l m : List Obj}, wfs l → wfs m → wfs (l ++ m)
  | [], _, _, h => h
  | _ :: _, _, h, h' => ⟨h.1, wfs_append h.2 h'⟩

theorem wfs_of : ∀ {l : List Obj}, (∀ o ∈ l, wf o) → wfs l
  | [], _ => trivial
  | o :: l, h => ⟨h o (by simp), wfs_of fun x hx => h x (by simp [hx])⟩

theorem wfs_ids {l : List IdDef} {f : IdDef → IdDef} (h : ∀ d ∈ l, wfId d) (hf : ∀ d, wfId d → wfId (f d)) : wfs (l.map fun d => .id (f d)) :=
  wfs_of (by simp only [List.mem_map]; rintro _ ⟨d, hd, rfl⟩; exact hf d (h d hd))

mutual
theorem decl_wf (h : Bool) : ∀ d : Decl, ¬ nullDecl d → Post wfs (visitDecl h d)
  | .subprogram s, _ => by simp only [visitDecl]; exact post_bind (subSpec_wf s) fun _ h => post_pure ⟨⟨h.1, h.2, trivial⟩, trivial⟩
  | .subInst _, _ | .packageInst _, _ | .file _ _, _ | .attrDecl _, _ | .attrSpec _, _ | .groupTemplate _, _ | .group _, _ | .disconnect, _ | .configSpec, _ => by
    simp only [visitDecl]; exact post_ok trivial
  | .package n _ l, hn => by
    simp only [visitDecl]
    refine post_bind (P := wfs) ?_ fun _ h => post_pure ⟨h, trivial⟩
    cases h
    · exact decls_wf false l (by simpa only [nullDecl] using hn)
    · exact post_ok trivial
  | .typeIncomplete n, _ => by simp only [visitDecl]; exact post_ok ⟨typeDef_wf' (.inl rfl), trivial⟩
  | .type n t, _ => by simp only [visitDecl]; exact post_bind (typeDef_wf n t) fun _ h => post_pure ⟨h, trivial⟩
  | .subtype n s, _ => by simp only [visitDecl]; exact post_bind (subInd_wf s) fun _ h => post_pure ⟨⟨.inr trivial, .inr h, by simp⟩, trivial⟩
  | .constant v, _ => by simp only [visitDecl]; exact post_bind (extractVars_wf v) fun _ h => post_pure (wfs_ids h fun d hd => ⟨hd.1, hd.2.1, hd.2.2⟩)
  | .variable sh v, _ => by simp only [visitDecl]; exact post_bind (extractVars_wf v) fun _ h => post_pure (wfs_ids h fun d hd => ⟨hd.1, hd.2.1, hd.2.2⟩)
  | .signal v _, _ => by simp only [visitDecl]; exact post_bind (extractVars_wf v) fun _ h => post_pure (wfs_ids (f := id) h fun d hd => hd)
  | .alias_ d t n _, _ => by
    simp only [visitDecl]
    exact post_bind (aliasType_wf t) fun _ h1 => post_bind (name_wf n) fun _ h2 => post_pure ⟨⟨h1, .inr h2, by simp⟩, trivial⟩
  | .use l, _ => by simp only [visitDecl]; exact use_wf l
  | .subBody s ds ss, hn => by
    simp only [nullDecl, not_or, not_exists, not_and] at hn
    simp only [visitDecl]
    exact post_bind (subSpec_wf s) fun _ h1 => post_bind (decls_wf h ds hn.1) fun _ h2 => post_bind (seqs_wf ss hn.2) fun _ h3 =>
      post_pure ⟨⟨h1.1, h1.2, wfs_append h2 h3⟩, trivial⟩
  | .packageBody n l, hn => by
    simp only [visitDecl]
    refine post_bind (P := wfs) ?_ fun _ h => post_pure ⟨h, trivial⟩
    cases h
    · exact decls_wf false l (by simpa only [nullDecl] using hn)
    · exact post_ok trivial
  | .component n g p, _ => by
    simp only [visitDecl]
    exact post_bind (intfsH_wf h g) fun _ h1 => post_bind (intfsH_wf h p) fun _ h2 => post_pure ⟨⟨h1, h2, trivial⟩, trivial⟩
theorem decls_wf (h : Bool) : ∀ l : List Decl, ¬ nullDecls l → Post wfs (visitDecls h l)
  | [], _ => by simp only [visitDecls]; exact post_ok trivial
  | d :: l, hn => by
    simp only [nullDecls, not_or] at hn
    simp only [visitDecls]
    exact post_bind (decl_wf h d hn.1) fun _ h1 => post_bind (decls_wf h l hn.2) fun _ h2 => post_pure (wfs_append h1 h2)
end

/-! ## Concurrent statements and design units -/

theorem procSens_wf (s : ProcSens) : Post (fun s => wfEs (s.getD [])) (visitProcSens s) := by
  cases s <;> simp only [visitProcSens]
  · exact post_ok trivial
  · exact post_ok ⟨trivial, trivial⟩
  · exact post_bind (names_wf _) fun _ h => post_pure h

theorem process_wf (h : Bool) (s : ProcSens) (ds : List Decl) (ss : List Seq) (hd : ¬ nullDecls ds) (hs : ∀ s ∈ ss, ¬ nullSeq s) :
    Post wf (visitProcess h s ds ss) := by
  unfold visitProcess
  exact post_bind (procSens_wf s) fun _ h1 => post_bind (decls_wf h ds hd) fun _ h2 => post_bind (seqs_wf ss hs) fun _ h3 =>
    post_pure ⟨h1, wfs_append h2 h3⟩

def wfSt (st : SelSt) : Prop := wfOpt st.dst ∧ wfBs st.cases ∧ wfN st.dflt

theorem selDst_wf {d : Expr} {st : SelSt} (hd : wfE d) (h : wfSt st) : Post wfOpt (selDst d st) := by
  unfold selDst
  split
  · exact post_ok h.1
  · exact post_mono (clone_wf hd) fun _ => .inr

theorem selChoices_wf {d : Expr} (hd : wfE d) (w : Waveform) : ∀ (l : List Expr) (st : SelSt), wfEs l → wfSt st → Post wfSt (selChoices d w l st)
  | [], _, _, h => by simp only [selChoices]; exact post_ok h
  | c :: l, st, hl, h => by
    simp only [selChoices]
    refine post_bind (waveform_wf w) fun _ h1 => post_bind (selDst_wf hd h) fun _ h2 => post_bind (mkAssign_wf h2 (.inr h1)) fun _ h3 => ?_
    split
    · exact selChoices_wf hd w l _ hl.2 ⟨.inl rfl, h.2.1, .inr h3⟩
    · exact selChoices_wf hd w l _ hl.2 ⟨.inl rfl, wfBs_append h.2.1 ⟨hl.1, h3, trivial⟩, h.2.2⟩

theorem selWaves_wf {d : Expr} (hd : wfE d) : ∀ (l : List (Waveform × List Choice)) (st : SelSt), wfSt st → Post wfSt (selWaves d l st)
  | [], _, h => by simp only [selWaves]; exact post_ok h
  | (w, ch) :: l, st, h => by
    simp only [selWaves]
    exact post_bind (choices_wf ch) fun _ h1 => post_bind (selChoices_wf hd w _ st h1 h) fun _ h2 => selWaves_wf hd l _ h2

theorem selected_wf (e : Expression) (t : Target) (l : List (Waveform × List Choice)) : Post wf (visitSelected e t l) := by
  unfold visitSelected
  exact post_bind (expression_wf e) fun _ h1 => post_bind (target_wf t) fun _ h2 => post_bind (selWaves_wf h2 l _ ⟨.inr h2, trivial, .inl rfl⟩) fun _ h3 =>
    post_pure ⟨h1, h3.2.1, h3.2.2⟩

theorem concKind_wf (h : Bool) (k : ConcKind) (hn : ¬ nullConcKind k) : Post wf (visitConcKind h k) := by
  cases k <;> simp only [visitConcKind]
  · simp only [nullConcKind, not_or, not_exists, not_and] at hn
    exact process_wf h _ _ _ hn.1 hn.2
  · exact post_bind (procCall_wf _) fun _ h => post_pure h
  · exact assertion_wf _ _ _
  · exact post_bind (target_wf _) fun _ h1 => post_bind (waveform_wf _) fun _ h2 => mkAssign_wf (.inr h1) (.inr h2)
  · exact post_bind (target_wf _) fun _ h1 => post_bind (condWaves_wf _) fun _ h2 => mkAssign_wf (.inr h1) h2
  · exact selected_wf _ _ _

theorem map_wf (l : Option (List Assoc)) : Post wfEs (visitMap l) := by
  cases l <;> simp only [visitMap]
  · exact post_ok trivial
  · exact assocs_wf _

theorem inst_wf (l : Str) (u : InstUnit) (g p : Option (List Assoc)) : Post wf (visitInst l u g p) := by
  unfold visitInst
  exact post_bind (name_wf _) fun _ h1 => post_bind (map_wf g) fun _ h2 => post_bind (map_wf p) fun _ h3 => post_pure ⟨trivial, h1, h2, h3⟩

theorem genBody_wf' (ds : List Decl) (b : Bool) {l : List Obj} (h : wfs l) : wf (mkGenBody ds b l) := by
  unfold mkGenBody
  split
  · exact h.1
  · exact h

theorem wfBs_map {b : Obj} (hb : wf b) : ∀ {l : List Expr}, wfEs l → wfBs (l.map fun c => .mk c b)
  | [], _ => trivial
  | _ :: _, h => ⟨h.1, hb, wfBs_map hb h.2⟩

mutual
theorem conc_wf (h : Bool) : ∀ c : Conc, ¬ nullConc c → Post wf (visitConc h c)
  | .plain none s, hn => by simp only [visitConc]; exact concKind_wf h s (by simpa only [nullConc] using hn)
  | .plain (some l) s, hn => by
    simp only [visitConc]; exact post_bind (concKind_wf h s (by simpa only [nullConc] using hn)) fun _ h => post_pure (pushLabel_wf h)
  | .block label _ _ _ ds ss, hn => by
    simp only [nullConc, not_or] at hn
    simp only [visitConc]
    exact post_bind (decls_wf h ds hn.1) fun _ h1 => post_bind (concs_wf h ss hn.2) fun _ h2 => post_pure (pushLabel_wf (wfs_append h1 h2))
  | .inst label u g p, _ => by simp only [visitConc]; exact inst_wf label u g p
  | .forGen label i d body endl, hn => by
    simp only [visitConc]
    exact post_bind (discr_wf d) fun _ h1 => post_bind (genBody_wf h body (by simpa only [nullConc] using hn)) fun _ h2 =>
      post_pure (pushLabel_wf (appendLabel_wf ⟨⟨trivial, trivial⟩, h1, h2⟩))
  | .ifGen label c el f endl, hn => by
    simp only [nullConc, not_or] at hn
    simp only [visitConc]
    exact post_bind (genCond_wf h c hn.1) fun _ h1 => post_bind (genConds_wf h el hn.2.1) fun _ h2 => post_bind (genElse_wf h f hn.2.2) fun _ h3 =>
      post_pure (pushLabel_wf ⟨h1.1, h1.2, h2, h3⟩)
  | .caseGen label e alts _, hn => by
    simp only [visitConc]
    exact post_bind (expression_wf e) fun _ h1 => post_bind (genAlts_wf h alts (by simpa only [nullConc] using hn)) fun _ h2 =>
      post_pure (pushLabel_wf ⟨h1, h2, .inl rfl⟩)
theorem concs_wf (h : Bool) : ∀ l : List Conc, ¬ nullConcs l → Post wfs (visitConcs h l)
  | [], _ => by simp only [visitConcs]; exact post_ok trivial
  | c :: l, hn => by
    simp only [nullConcs, not_or] at hn
    simp only [visitConcs]
    exact post_bind (conc_wf h c hn.1) fun _ h1 => post_bind (concs_wf h l hn.2) fun _ h2 => post_pure ⟨h1, h2⟩
theorem genCond_wf (h : Bool) : ∀ c : GenCond, ¬ nullGenCond c → Post (fun r => wfE r.1 ∧ wf r.2) (visitGenCond h c)
  | .mk _ c b, hn => by
    simp only [visitGenCond]
    exact post_bind (expression_wf c) fun _ h1 => post_bind (genBody_wf h b (by simpa only [nullGenCond] using hn)) fun _ h2 => post_pure ⟨h1, h2⟩
theorem genConds_wf (h : Bool) : ∀ l : List GenCond, ¬ nullGenConds l → Post wfBs (visitGenConds h l)
  | [], _ => by simp only [visitGenConds]; exact post_ok trivial
  | c :: l, hn => by
    simp only [nullGenConds, not_or] at hn
    simp only [visitGenConds]
    exact post_bind (genCond_wf h c hn.1) fun _ h1 => post_bind (genConds_wf h l hn.2) fun _ h2 => post_pure ⟨h1.1, h1.2, h2⟩
theorem genElse_wf (h : Bool) : ∀ f : GenElse, ¬ nullGenElse f → Post wfN (visitGenElse h f)
  | .none, _ => by simp only [visitGenElse]; exact post_ok (.inl rfl)
  | .some _ b, hn => by simp only [visitGenElse]; exact post_mono (genBody_wf h b (by simpa only [nullGenElse] using hn)) fun _ => .inr
theorem genAlts_wf (h : Bool) : ∀ l : List GenAlt, ¬ nullGenAlts l → Post wfBs (visitGenAlts h l)
  | [], _ => by simp only [visitGenAlts]; exact post_ok trivial
  | .mk _ ch b :: l, hn => by
    simp only [nullGenAlts, not_or] at hn
    simp only [visitGenAlts]
    refine post_bind (P := fun c => wfEs c ∧ (c ≠ [] → ch ≠ [])) (fun c h => ⟨choices_wf ch c h, by rintro h1 rfl; simp only [visitChoices] at h; cases h; exact h1 rfl⟩) fun c hc =>
      post_bind (P := wfBs) ?_ fun _ h1 => post_bind (genAlts_wf h l hn.2) fun _ h2 => post_pure (wfBs_append h1 h2)
    cases c with
    | nil => exact post_ok trivial
    | cons c cs =>
      exact post_bind (genBody_wf h b fun h => hn.1 ⟨hc.2 (by simp), h⟩) fun _ hb => post_pure (wfBs_map hb hc.1)
theorem genBody_wf (h : Bool) : ∀ b : GenBody, ¬ nullGenBody b → Post wf (visitGenBody h b)
  | .mk ds bg ss, hn => by
    simp only [nullGenBody, not_or] at hn
    simp only [visitGenBody]
    exact post_bind (decls_wf h ds hn.1) fun _ h1 => post_bind (concs_wf h ss hn.2) fun _ h2 => post_pure (genBody_wf' ds bg (wfs_append h1 h2))
end

theorem contextItem_wf (i : ContextItem) : Post wfs (visitContextItem i) := by
  cases i <;> simp only [visitContextItem]
  · exact post_ok (wfs_of (by simp only [List.mem_map]; rintro _ ⟨n, _, rfl⟩; trivial))
  · exact use_wf _
  · exact post_ok trivial

theorem contextItems_wf : ∀ l : List ContextItem, Post wfs (visitContextItems l)
  | [] => by simp only [visitContextItems]; exact post_ok trivial
  | i :: l => by
    simp only [visitContextItems]
    exact post_bind (contextItem_wf i) fun _ h1 => post_bind (contextItems_wf l) fun _ h2 => post_pure (wfs_append h1 h2)

theorem ifDecls_wf (h : Bool) (l : List Decl) (hn : ¬ nullDecls l) : Post wfs (if h then .ok [] else visitDecls h l) := by
  cases h
  · exact decls_wf false l hn
  · exact post_ok trivial

theorem libUnit_wf (h : Bool) (u : LibUnit) (hn : ¬ nullLibUnit u) : Post wfs (visitLibUnit h u) := by
  cases u <;> simp only [visitLibUnit, nullLibUnit, not_or] at hn ⊢
  · exact post_bind (intfsH_wf h _) fun _ h1 => post_bind (intfsH_wf h _) fun _ h2 => post_bind (ifDecls_wf h _ hn) fun _ h3 =>
      post_pure ⟨⟨h1, h2, h3⟩, trivial⟩
  · exact post_ok trivial
  · exact decl_wf h _ (by simpa only [nullDecl] using hn)
  · exact post_ok trivial
  · exact post_ok trivial
  · exact post_bind (name_wf _) fun _ h1 => post_bind (ifDecls_wf h _ hn.1) fun _ h2 => post_bind (concs_wf h _ hn.2) fun _ h3 =>
      post_pure ⟨⟨.inr h1, .inl rfl, wfs_append h2 h3⟩, trivial⟩
  · exact decl_wf h _ (by simpa only [nullDecl] using hn)

theorem designFile_wf (h : Bool) : ∀ l : List DesignUnit, (∀ u ∈ l, ¬ nullLibUnit u.unit) → Post wfs (visitDesignFile h l)
  | [], _ => by simp only [visitDesignFile]; exact post_ok trivial
  | u :: l, hn => by
    simp only [visitDesignFile, visitDesignUnit]
    refine post_bind (P := wfs) ?_ fun _ h1 => post_bind (designFile_wf h l fun x hx => hn x (by simp [hx])) fun _ h2 => post_pure (wfs_append h1 h2)
    exact post_bind (contextItems_wf _) fun _ h1 => post_bind (libUnit_wf h _ (hn u (by simp))) fun _ h2 => post_pure (wfs_append h1 h2)

/-! ## The other direction: a null pointer is never convertible -/

/-- There is an object that is not convertible and not the null pointer. -/
def Bad (l : List Obj) : Prop := ∃ o ∈ l, ¬ wfN o

theorem bad_left {l m : List Obj} (h : Bad l) : Bad (l ++ m) := by obtain ⟨o, h, h'⟩ := h; exact ⟨o, by simp [h], h'⟩

theorem bad_right {l m : List Obj} (h : Bad m) : Bad (l ++ m) := by obtain ⟨o, h, h'⟩ := h; exact ⟨o, by simp [h], h'⟩

theorem wfs_mem : ∀ {l : List Obj}, wfs l → ∀ o ∈ l, wf o
  | _ :: _, h, _, .head _ => h.1
  | _ :: _, h, o, .tail _ ho => wfs_mem h.2 o ho

theorem bad_not_wfs {l : List Obj} (h : Bad l) : ¬ wfs l := by
  obtain ⟨o, h, h'⟩ := h
  exact fun hl => h' (.inr (wfs_mem hl o h))

theorem not_wfs_append_right {l m : List Obj} (h : ¬ wfs m) : ¬ wfs (l ++ m) := by
  intro h'
  apply h
  clear h
  induction l with
  | nil => exact h'
  | cons o l ih => exact ih h'.2

theorem post_right {α β : Type} {Q : β → Prop} {x : Except Exc α} {f : α → Except Exc β} (hf : ∀ a, Post Q (f a)) : Post Q (x >>= f) :=
  post_bind post_any fun a _ => hf a

theorem bad_one {o : Obj} (h : o ≠ .null) (h' : ¬ wf o) : Bad [o] := ⟨o, by simp, fun h'' => h''.elim h h'⟩

theorem seq_null {s : Seq} (h : nullSeq s) : Post (· = .null) (visitSeq s) := by
  obtain ⟨label, s⟩ := s
  cases label with
  | some l => cases h
  | none =>
    cases s with
    | sig a =>
      cases a with
      | sel => exact fun o ho => by simpa [visitSeq, visitSeqKind, visitSigAssign, bind, Except.bind, pure, Except.pure, eq_comm] using ho
      | selForce => exact fun o ho => by simpa [visitSeq, visitSeqKind, visitSigAssign, bind, Except.bind, pure, Except.pure, eq_comm] using ho
      | _ => cases h
    | _ => cases h

theorem seqs_null : ∀ l : List Seq, (∃ s ∈ l, nullSeq s) → Post (¬ wfs ·) (visitSeqs l)
  | [], h => by simp at h
  | s :: l, h => by
    simp only [List.mem_cons, exists_eq_or_imp] at h
    simp only [visitSeqs]
    rcases h with h | h
    · exact post_bind (seq_null h) fun o ho => post_right fun _ => post_pure (by subst ho; exact fun h => h.1)
    · exact post_right fun _ => post_bind (seqs_null l h) fun _ h => post_pure fun h' => h h'.2

mutual
theorem decl_null : ∀ d : Decl, nullDecl d → Post Bad (visitDecl false d)
  | .package n _ l, h => by
    simp only [visitDecl]
    exact post_bind (P := Bad) (decls_null l (by simpa only [nullDecl] using h)) fun _ h => post_pure (bad_one (by simp) (bad_not_wfs h))
  | .packageBody n l, h => by
    simp only [visitDecl]
    exact post_bind (P := Bad) (decls_null l (by simpa only [nullDecl] using h)) fun _ h => post_pure (bad_one (by simp) (bad_not_wfs h))
  | .subBody s ds ss, h => by
    simp only [nullDecl] at h
    simp only [visitDecl]
    refine post_right fun _ => ?_
    rcases h with h | h
    · exact post_bind (decls_null ds h) fun _ h => post_right fun _ => post_pure (bad_one (by simp) fun h' => bad_not_wfs (bad_left h) h'.2.2)
    · exact post_right fun _ => post_bind (seqs_null ss h) fun _ h => post_pure (bad_one (by simp) fun h' => not_wfs_append_right h h'.2.2)
  | .subprogram _, h | .subInst _, h | .packageInst _, h | .file _ _, h | .attrDecl _, h | .attrSpec _, h | .groupTemplate _, h | .group _, h
  | .disconnect, h | .configSpec, h | .typeIncomplete _, h | .type _ _, h | .subtype _ _, h | .constant _, h | .variable _ _, h | .signal _ _, h
  | .alias_ _ _ _ _, h | .use _, h | .component _ _ _, h => by simp only [nullDecl] at h
theorem decls_null : ∀ l : List Decl, nullDecls l → Post Bad (visitDecls false l)
  | [], h => by simp only [nullDecls] at h
  | d :: l, h => by
    simp only [nullDecls] at h
    simp only [visitDecls]
    rcases h with h | h
    · exact post_bind (decl_null d h) fun _ h => post_right fun _ => post_pure (bad_left h)
    · exact post_right fun _ => post_bind (decls_null l h) fun _ h => post_pure (bad_right h)
end

theorem nwfN {o : Obj} (h : o ≠ .null) (h' : ¬ wf o) : ¬ wfN o := fun h'' => h''.elim h h'

theorem concKind_null (k : ConcKind) (h : nullConcKind k) : Post (¬ wfN ·) (visitConcKind false k) := by
  cases k with
  | process _ s ds ss =>
    simp only [visitConcKind, visitProcess]
    refine post_right fun _ => ?_
    rcases h with h | h
    · exact post_bind (decls_null ds h) fun _ h => post_right fun _ => post_pure (nwfN (by simp) fun h' => bad_not_wfs (bad_left h) h'.2)
    · exact post_right fun _ => post_bind (seqs_null ss h) fun _ h => post_pure (nwfN (by simp) fun h' => not_wfs_append_right h h'.2)
  | _ => cases h

theorem wfBs_right : ∀ {l m : List Branch}, wfBs (l ++ m) → wfBs m
  | [], _, h => h
  | .mk _ _ :: _, _, h => wfBs_right h.2.2

theorem wfBs_left : ∀ {l m : List Branch}, wfBs (l ++ m) → wfBs l
  | [], _, _ => trivial
  | .mk _ _ :: _, _, h => ⟨h.1, h.2.1, wfBs_left h.2.2⟩

theorem mapInfo_null (f : StmInfo → StmInfo) (o : Obj) : o.mapInfo f = .null ↔ o = .null := by
  cases o <;> simp only [Obj.mapInfo, reduceCtorEq]

theorem mapInfo_wfN (f : StmInfo → StmInfo) (o : Obj) : wfN (o.mapInfo f) ↔ wfN o := by
  unfold wfN
  rw [mapInfo_null, mapInfo_wf]

theorem pushLabel_null {l : Str} {o : Obj} (h : ¬ wfN o) : ¬ wfN (pushLabel l o) := fun h' => h ((mapInfo_wfN _ o).1 h')

theorem appendLabel_null {l : Option Str} {o : Obj} (h : ¬ wfN o) : ¬ wfN (appendLabel l o) := by
  cases l
  · exact h
  · exact fun h' => h ((mapInfo_wfN _ o).1 h')

theorem genBody_null' (ds : List Decl) (b : Bool) {l : List Obj} (h : Bad l) : ¬ wfN (mkGenBody ds b l) := by
  unfold mkGenBody
  split
  · obtain ⟨o, h, h'⟩ := h
    rw [List.mem_singleton] at h
    subst h
    exact h'
  · exact nwfN (by simp) (bad_not_wfs h)

mutual
theorem conc_null : ∀ c : Conc, nullConc c → Post (¬ wfN ·) (visitConc false c)
  | .plain none s, h => by simp only [visitConc]; exact concKind_null s (by simpa only [nullConc] using h)
  | .plain (some l) s, h => by
    simp only [visitConc]; exact post_bind (concKind_null s (by simpa only [nullConc] using h)) fun _ h => post_pure (pushLabel_null h)
  | .block label _ _ _ ds ss, h => by
    simp only [nullConc] at h
    simp only [visitConc]
    rcases h with h | h
    · exact post_bind (decls_null ds h) fun _ h => post_right fun _ => post_pure (pushLabel_null (nwfN (by simp) (bad_not_wfs (bad_left h))))
    · exact post_right fun _ => post_bind (concs_null ss h) fun _ h => post_pure (pushLabel_null (nwfN (by simp) (bad_not_wfs (bad_right h))))
  | .inst .., h => by simp only [nullConc] at h
  | .forGen label i d body endl, h => by
    simp only [visitConc]
    exact post_right fun _ => post_bind (genBody_null body (by simpa only [nullConc] using h)) fun _ h =>
      post_pure (pushLabel_null (appendLabel_null (nwfN (by simp) fun h' => h (.inr h'.2.2))))
  | .ifGen label c el f endl, h => by
    simp only [nullConc] at h
    simp only [visitConc]
    rcases h with h | h | h
    · exact post_bind (genCond_null c h) fun _ h => post_right fun _ => post_right fun _ =>
        post_pure (pushLabel_null (nwfN (by simp) fun h' => h (.inr h'.2.1)))
    · exact post_right fun _ => post_bind (genConds_null el h) fun _ h => post_right fun _ =>
        post_pure (pushLabel_null (nwfN (by simp) fun h' => h h'.2.2.1))
    · exact post_right fun _ => post_right fun _ => post_bind (genElse_null f h) fun _ h =>
        post_pure (pushLabel_null (nwfN (by simp) fun h' => h h'.2.2.2))
  | .caseGen label e alts _, h => by
    simp only [visitConc]
    exact post_right fun _ => post_bind (genAlts_null alts (by simpa only [nullConc] using h)) fun _ h =>
      post_pure (pushLabel_null (nwfN (by simp) fun h' => h h'.2.1))
theorem concs_null : ∀ l : List Conc, nullConcs l → Post Bad (visitConcs false l)
  | [], h => by simp only [nullConcs] at h
  | c :: l, h => by
    simp only [nullConcs] at h
    simp only [visitConcs]
    rcases h with h | h
    · exact post_bind (conc_null c h) fun o h => post_right fun _ => post_pure ⟨o, by simp, h⟩
    · exact post_right fun _ => post_bind (concs_null l h) fun _ h => post_pure (bad_right (l := [_]) h)
theorem genCond_null : ∀ c : GenCond, nullGenCond c → Post (fun r => ¬ wfN r.2) (visitGenCond false c)
  | .mk _ c b, h => by
    simp only [visitGenCond]
    exact post_right fun _ => post_bind (genBody_null b (by simpa only [nullGenCond] using h)) fun _ h => post_pure h
theorem genConds_null : ∀ l : List GenCond, nullGenConds l → Post (¬ wfBs ·) (visitGenConds false l)
  | [], h => by simp only [nullGenConds] at h
  | c :: l, h => by
    simp only [nullGenConds] at h
    simp only [visitGenConds]
    rcases h with h | h
    · exact post_bind (genCond_null c h) fun _ h => post_right fun _ => post_pure fun h' => h (.inr h'.2.1)
    · exact post_right fun _ => post_bind (genConds_null l h) fun _ h => post_pure fun h' => h h'.2.2
theorem genElse_null : ∀ f : GenElse, nullGenElse f → Post (¬ wfN ·) (visitGenElse false f)
  | .none, h => by simp only [nullGenElse] at h
  | .some _ b, h => by simp only [visitGenElse]; exact genBody_null b (by simpa only [nullGenElse] using h)
theorem genAlts_null : ∀ l : List GenAlt, nullGenAlts l → Post (¬ wfBs ·) (visitGenAlts false l)
  | [], h => by simp only [nullGenAlts] at h
  | .mk _ ch b :: l, h => by
    simp only [nullGenAlts] at h
    simp only [visitGenAlts]
    rcases h with h | h
    · cases ch with
      | nil => exact absurd rfl h.1
      | cons c cs =>
        refine post_bind (P := (· ≠ [])) ?_ fun c hc => post_bind (P := (¬ wfBs ·)) ?_ fun _ h => post_right fun _ => post_pure fun h' => h (wfBs_left h')
        · simp only [visitChoices]
          exact post_right fun _ => post_right fun _ => post_pure (by simp)
        · cases c with
          | nil => exact absurd rfl hc
          | cons c cs => exact post_bind (genBody_null b h.2) fun _ hb => post_pure fun h' => hb (.inr h'.2.1)
    · exact post_right fun _ => post_right fun _ => post_bind (genAlts_null l h) fun _ h => post_pure fun h' => h (wfBs_right h')
theorem genBody_null : ∀ b : GenBody, nullGenBody b → Post (¬ wfN ·) (visitGenBody false b)
  | .mk ds bg ss, h => by
    simp only [nullGenBody] at h
    simp only [visitGenBody]
    rcases h with h | h
    · exact post_bind (decls_null ds h) fun _ h => post_right fun _ => post_pure (genBody_null' ds bg (bad_left h))
    · exact post_right fun _ => post_bind (concs_null ss h) fun _ h => post_pure (genBody_null' ds bg (bad_right h))
end

theorem libUnit_null (u : LibUnit) (h : nullLibUnit u) : Post Bad (visitLibUnit false u) := by
  cases u <;> simp only [visitLibUnit, nullLibUnit] at h ⊢
  · exact post_right fun _ => post_right fun _ => post_bind (P := Bad) (decls_null _ h) fun _ h =>
      post_pure (bad_one (by simp) fun h' => bad_not_wfs h h'.2.2)
  · exact decl_null _ (by simpa only [nullDecl] using h)
  · refine post_right fun _ => ?_
    rcases h with h | h
    · exact post_bind (P := Bad) (decls_null _ h) fun _ h => post_right fun _ => post_pure (bad_one (by simp) fun h' => bad_not_wfs (bad_left h) h'.2.2)
    · exact post_right fun _ => post_bind (concs_null _ h) fun _ h => post_pure (bad_one (by simp) fun h' => bad_not_wfs (bad_right h) h'.2.2)
  · exact decl_null _ (by simpa only [nullDecl] using h)

theorem designFile_null : ∀ l : List DesignUnit, (∃ u ∈ l, nullLibUnit u.unit) → Post Bad (visitDesignFile false l)
  | [], h => by simp at h
  | u :: l, h => by
    simp only [List.mem_cons, exists_eq_or_imp] at h
    simp only [visitDesignFile, visitDesignUnit]
    rcases h with h | h
    · refine post_bind (P := Bad) ?_ fun _ h => post_right fun _ => post_pure (bad_left h)
      exact post_right fun _ => post_bind (libUnit_null _ h) fun _ h => post_pure (bad_right h)
    · exact post_right fun _ => post_bind (designFile_null l h) fun _ h => post_pure (bad_right h)

end Vhdl
end Verif
