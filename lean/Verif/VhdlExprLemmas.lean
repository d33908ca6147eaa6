import Verif.Vhdl.Expr
import Verif.Spec.VhdlSem
/-!
# VHDL expressions: the supported fragment, and the induction over the parse tree
-/
namespace Verif.Vhdl
open Verif Verif.Spec

/-- `leaf` reads the converted tokens as `A` reads the tokens. (That the conversion of a token keeps its value is a property of its
own, C30 - C33 and C60.) -/
structure Agrees {V : Type} (A : Alg V) (leaf : Expr → V) : Prop where
  lit : ∀ l e, visitNameLit l = .ok e → leaf e = A.lit l
  dec : ∀ t e, visitDec t = .ok e → leaf e = A.dec t
  based : ∀ t v, vhdlBased t = .ok v → leaf (.int none v) = A.based t
  bits : ∀ t v, vhdlBitString t = .ok v → leaf (.int none v) = A.bits t
  newKw : leaf (.id none (c! "new")) = A.newKw

mutual
/-- Is the expression (in any number of parentheses) an aggregate of one named element such as `(others => '0')`? -/
def oneAggP : Primary → Bool
  | .agg [.named _ _] => true
  | .agg [.pos e] => oneAggE e
  | _ => false
def oneAggE : Expression → Bool
  | .simple s => oneAggS s
  | _ => false
def oneAggS : Simple → Bool
  | .prim p => oneAggP p
  | _ => false
end

/-- The token can be converted. -/
def litOk (l : NameLit) : Prop := ∃ e, visitNameLit l = .ok e

mutual
/-- The fragment for which the conversion keeps the meaning: all literals convert; no external names, signatures, record
constraints, element resolutions, `??`, unary `xnor`, alternatives in choices, and no aggregate of one named element directly as
operand of an operator of `simple_expression`. -/
def okName : Name → Prop
  | .lit l => litOk l
  | .external => False
  | .slice n r => okName n ∧ okERange r
  | .attr n sg _ => okName n ∧ sg = false
  | .dot n s => okName n ∧ (match s with | .lit l => litOk l | .all => True)
  | .assoc n l => okName n ∧ okAssocs l
def okERange : ERange → Prop
  | .mk a _ b => okSimple a ∧ okSimple b
def okAssocs : List Assoc → Prop
  | [] => True
  | a :: l => okAssoc a ∧ okAssocs l
def okAssoc : Assoc → Prop
  | .pos a => okActual a
  | .named f a => okName f ∧ okActual a
  | .namedConv f g a => okName f ∧ okName g ∧ okActual a
def okActual : Actual → Prop
  | .desig d => okDesig d
  | .conv n d => okName n ∧ okDesig d
def okDesig : Desig → Prop
  | .opn => True
  | .sub s => okSubInd s
  | .expr e => okExpression e
def okSubInd : SubInd → Prop
  | .mk r tm c => okResol r ∧ okName tm ∧ okConstr c
def okResol : Resol → Prop
  | .none => True
  | .name n => okName n
  | .element => False
def okConstr : Constr → Prop
  | .none => True
  | .range r => okRange r
  | .array a => okArrC a
  | .record => False
def okRange : Range → Prop
  | .attr n sg _ => okName n ∧ sg = false
  | .expl r => okERange r
def okArrC : ArrC → Prop
  | .index l c => okDiscrs l ∧ okElemC c
  | .opn c => okElemC c
def okElemC : ElemC → Prop
  | .none => True
  | .array a => okArrC a
  | .record => False
def okDiscrs : List Discr → Prop
  | [] => True
  | d :: l => okDiscr d ∧ okDiscrs l
def okDiscr : Discr → Prop
  | .sub s => okSubInd s
  | .range r => okRange r
def okExpression : Expression → Prop
  | .cond _ => False
  | .simple s => okSimple s
  | .shift a _ b => okExpression a ∧ okExpression b
  | .rel a _ b => okExpression a ∧ okExpression b
  | .logic a _ b => okExpression a ∧ okExpression b
def okSimple : Simple → Prop
  | .prim p => okPrimary p
  | .pow a b => (okPrimary a ∧ oneAggP a = false) ∧ okPrimary b ∧ oneAggP b = false
  | .abs s => okSimple s ∧ oneAggS s = false
  | .not s => okSimple s ∧ oneAggS s = false
  | .logic o s => o ≠ .xnor ∧ okSimple s ∧ oneAggS s = false
  | .sign _ s => okSimple s ∧ oneAggS s = false
  | .mul a _ b => (okSimple a ∧ oneAggS a = false) ∧ okSimple b ∧ oneAggS b = false
  | .add a _ b => (okSimple a ∧ oneAggS a = false) ∧ okSimple b ∧ oneAggS b = false
def okPrimary : Primary → Prop
  | .name n => okName n
  | .dec t => ∃ e, visitDec t = .ok e
  | .decUnit t n => (∃ e, visitDec t = .ok e) ∧ okName n
  | .based t => ∃ v, vhdlBased t = .ok v
  | .basedUnit t n => (∃ v, vhdlBased t = .ok v) ∧ okName n
  | .bits t => ∃ v, vhdlBitString t = .ok v
  | .null => True
  | .newSub s => okSubInd s
  | .newQual t l => okName t ∧ okElems l
  | .agg l => okElems l
  | .qual t l => okName t ∧ okElems l
def okElems : List Elem → Prop
  | [] => True
  | e :: l => okElem e ∧ okElems l
def okElem : Elem → Prop
  | .pos e => okExpression e
  | .named l e => okChoices l ∧ l.length = 1 ∧ okExpression e
def okChoices : List Choice → Prop
  | [] => True
  | c :: l => okChoice c ∧ okChoices l
def okChoice : Choice → Prop
  | .discr d => okDiscr d
  | .simple s => okSimple s
  | .others => True
end

/-- Top of the converted expression: not an element association, and an array of one element only if `one`. -/
structure Shape (one : Bool) (e : Expr) : Prop where
  map : ∀ p l, e ≠ .op p .MAP_ASSOCIATION l
  arr : one = false → ∀ p x, e ≠ .arr p [x]

theorem shape_op {one : Bool} {p : Option CodePos} {o : OpType} {l : List Expr} (h : o ≠ .MAP_ASSOCIATION) : Shape one (.op p o l) :=
  ⟨fun _ _ he => h (by cases he; rfl), fun _ _ _ he => by cases he⟩

theorem aggToParen_shape {e : Expr} (h : Shape false e) : aggToParen e = e := by
  unfold aggToParen
  split
  · rename_i p x; exact absurd rfl (h.arr rfl p x)
  · rfl

variable {V : Type} {A : Alg V} {leaf : Expr → V}

theorem astEval_push {e : Expr} {v : V} (h : astEval A leaf e = some v) : e.push = [e] := by
  cases e <;> first | rfl | (simp [astEval] at h)

theorem astEval_bin {a b : Expr} {va vb : V} (ha : astEval A leaf a = some va) (hb : astEval A leaf b = some vb) (o : OpType) :
    astEval A leaf (.mkBin none a o b) = opMeaning A o [va, vb] := by
  simp [Expr.mkBin, astEval_push ha, astEval_push hb, astEval, astEvals, ha, hb]

theorem astEval_un {a : Expr} {va : V} (ha : astEval A leaf a = some va) (o : OpType) :
    astEval A leaf (.mkUn none o a) = opMeaning A o [va] := by
  simp [Expr.mkUn, astEval, astEvals, ha]

theorem astEval_index {f : Expr} {l : List Expr} {vf : V} {vl : List V} (hf : astEval A leaf f = some vf)
    (hl : astEvals A leaf l = some vl) : astEval A leaf (.mkIndex none f l) = some (A.index vf vl) := by
  simp [Expr.mkIndex, astEval, astEvals, hf, hl, opMeaning]

theorem astEval_call {f : Expr} {l : List Expr} {vf : V} {vl : List V} (hf : astEval A leaf f = some vf)
    (hl : astEvals A leaf l = some vl) : astEval A leaf (.mkCall none f l) = some (A.call vf vl) := by
  simp [Expr.mkCall, astEval, astEvals, hf, hl, opMeaning]

theorem astEvals_one {e : Expr} {v : V} (h : astEval A leaf e = some v) : astEvals A leaf [e] = some [v] := by
  simp [astEvals, h]

theorem lit_eval (hA : Agrees A leaf) {l : NameLit} (h : litOk l) :
    ∃ e, visitNameLit l = .ok e ∧ astEval A leaf e = some (A.lit l) ∧ ∀ one, Shape one e := by
  obtain ⟨e, he⟩ := h
  refine ⟨e, he, ?_, ?_⟩
  · rw [← hA.lit l e he]
    cases l with
    | ident t => cases he; rfl
    | opSymbol t =>
      simp only [visitNameLit] at he
      cases h1 : vhdlString t with
      | error x => rw [h1] at he; cases he
      | ok s => rw [h1] at he; cases he; rfl
    | chr t =>
      simp only [visitNameLit] at he
      cases h1 : vhdlChar t with
      | error x => rw [h1] at he; cases he
      | ok s => rw [h1] at he; cases he; rfl
  · intro one
    cases l with
    | ident t => cases he; constructor <;> simp
    | opSymbol t =>
      simp only [visitNameLit] at he
      cases h1 : vhdlString t with
      | error x => rw [h1] at he; cases he
      | ok s => rw [h1] at he; cases he; constructor <;> simp
    | chr t =>
      simp only [visitNameLit] at he
      cases h1 : vhdlChar t with
      | error x => rw [h1] at he; cases he
      | ok s => rw [h1] at he; cases he; constructor <;> simp

theorem suffix_eval (hA : Agrees A leaf) {s : Suffix} (h : match s with | .lit l => litOk l | .all => True) :
    ∃ e, visitSuffix s = .ok e ∧ astEval A leaf e = some (evSuffix A s) := by
  cases s with
  | lit l => obtain ⟨e, h1, h2, -⟩ := lit_eval hA h; exact ⟨e, h1, h2⟩
  | all => exact ⟨_, rfl, rfl⟩

theorem ident_eval (hA : Agrees A leaf) (d : Str) : astEval A leaf (.id none d) = some (A.lit (.ident d)) := by
  rw [← hA.lit (.ident d) (.id none d) rfl]; rfl

theorem dec_eval (hA : Agrees A leaf) {t : Str} {e : Expr} (h : visitDec t = .ok e) :
    astEval A leaf e = some (A.dec t) ∧ ∀ one, Shape one e := by
  rw [← hA.dec t e h]
  unfold visitDec at h
  cases h1 : vhdlDecimal t with
  | error x => rw [h1] at h; cases h
  | ok v => rw [h1] at h; cases v <;> cases h <;> exact ⟨rfl, fun one => by constructor <;> simp⟩

mutual
theorem name_eval (hA : Agrees A leaf) : ∀ n : Name, okName n →
    ∃ e, visitName n = .ok e ∧ astEval A leaf e = some (evName A n) ∧ ∀ one, Shape one e
  | .lit l, h => by
    obtain ⟨e, h1, h2, h3⟩ := lit_eval hA (by simpa [okName] using h)
    exact ⟨e, by simpa [visitName] using h1, by simpa [evName] using h2, h3⟩
  | .external, h => by simp [okName] at h
  | .slice n r, h => by
    simp only [okName] at h
    obtain ⟨en, hn1, hn2, -⟩ := name_eval hA n h.1
    obtain ⟨er, hr1, hr2⟩ := erange_eval hA r h.2
    refine ⟨_, by simp only [visitName, hn1, hr1, bind, Except.bind, pure, Except.pure]; rfl, ?_, fun one => by exact shape_op (by decide)⟩
    rw [astEval_bin hn2 hr2]; simp [opMeaning, evName]
  | .attr n sg d, h => by
    simp only [okName] at h
    obtain ⟨en, hn1, hn2, -⟩ := name_eval hA n h.1
    refine ⟨_, by simp only [visitName, hn1, bind, Except.bind, pure, Except.pure]; rfl, ?_, fun one => by exact shape_op (by decide)⟩
    rw [astEval_bin hn2 (ident_eval hA d)]; simp [opMeaning, evName]
  | .dot n s, h => by
    simp only [okName] at h
    obtain ⟨en, hn1, hn2, -⟩ := name_eval hA n h.1
    obtain ⟨es, hs1, hs2⟩ := suffix_eval hA h.2
    refine ⟨_, by simp only [visitName, hn1, hs1, bind, Except.bind, pure, Except.pure]; rfl, ?_, fun one => by exact shape_op (by decide)⟩
    rw [astEval_bin hn2 hs2]; simp [opMeaning, evName]
  | .assoc n l, h => by
    simp only [okName] at h
    obtain ⟨en, hn1, hn2, -⟩ := name_eval hA n h.1
    obtain ⟨el, hl1, hl2⟩ := assocs_eval hA l h.2
    refine ⟨_, by simp only [visitName, hn1, hl1, bind, Except.bind, pure, Except.pure]; rfl, ?_, fun one => by exact shape_op (by decide)⟩
    rw [astEval_index hn2 hl2]; simp [evName]
theorem erange_eval (hA : Agrees A leaf) : ∀ r : ERange, okERange r →
    ∃ e, visitERange r = .ok e ∧ astEval A leaf e = some (evERange A r)
  | .mk a dt b, h => by
    simp only [okERange] at h
    obtain ⟨ea, ha1, ha2, -⟩ := simple_eval hA a h.1
    obtain ⟨eb, hb1, hb2, -⟩ := simple_eval hA b h.2
    cases dt
    · refine ⟨_, by simp only [visitERange, ha1, hb1, bind, Except.bind, pure, Except.pure]; rfl, ?_⟩
      simp only [Bool.false_eq_true, if_false]
      rw [astEval_bin ha2 hb2]; simp [opMeaning, evERange]
    · refine ⟨_, by simp only [visitERange, ha1, hb1, bind, Except.bind, pure, Except.pure]; rfl, ?_⟩
      simp only [if_true]
      rw [astEval_bin ha2 hb2]; simp [opMeaning, evERange]
theorem assocs_eval (hA : Agrees A leaf) : ∀ l : List Assoc, okAssocs l →
    ∃ e, visitAssocs l = .ok e ∧ astEvals A leaf e = some (evAssocs A l)
  | [], _ => ⟨[], by simp [visitAssocs], by simp [astEvals, evAssocs]⟩
  | a :: l, h => by
    simp only [okAssocs] at h
    obtain ⟨ea, ha1, ha2⟩ := assoc_eval hA a h.1
    obtain ⟨el, hl1, hl2⟩ := assocs_eval hA l h.2
    refine ⟨_, by simp only [visitAssocs, ha1, hl1, bind, Except.bind, pure, Except.pure]; rfl, ?_⟩
    simp [astEvals, ha2, hl2, evAssocs]
theorem assoc_eval (hA : Agrees A leaf) : ∀ a : Assoc, okAssoc a →
    ∃ e, visitAssoc a = .ok e ∧ astEval A leaf e = some (evAssoc A a)
  | .pos a, h => by
    simp only [okAssoc] at h
    obtain ⟨e, h1, h2⟩ := actual_eval hA a h
    exact ⟨e, by simpa [visitAssoc] using h1, by simpa [evAssoc] using h2⟩
  | .named f a, h => by
    simp only [okAssoc] at h
    obtain ⟨ef, hf1, hf2, -⟩ := name_eval hA f h.1
    obtain ⟨ea, ha1, ha2⟩ := actual_eval hA a h.2
    refine ⟨_, by simp only [visitAssoc, hf1, ha1, bind, Except.bind, pure, Except.pure]; rfl, ?_⟩
    rw [astEval_bin hf2 ha2]; simp [opMeaning, evAssoc]
  | .namedConv f g a, h => by
    simp only [okAssoc] at h
    obtain ⟨ef, hf1, hf2, -⟩ := name_eval hA f h.1
    obtain ⟨eg, hg1, hg2, -⟩ := name_eval hA g h.2.1
    obtain ⟨ea, ha1, ha2⟩ := actual_eval hA a h.2.2
    refine ⟨_, by simp only [visitAssoc, hf1, hg1, ha1, bind, Except.bind, pure, Except.pure]; rfl, ?_⟩
    rw [astEval_bin (astEval_call hf2 (astEvals_one hg2)) ha2]; simp [opMeaning, evAssoc]
theorem actual_eval (hA : Agrees A leaf) : ∀ a : Actual, okActual a →
    ∃ e, visitActual a = .ok e ∧ astEval A leaf e = some (evActual A a)
  | .desig d, h => by
    simp only [okActual] at h
    obtain ⟨e, h1, h2⟩ := desig_eval hA d h
    exact ⟨e, by simpa [visitActual] using h1, by simpa [evActual] using h2⟩
  | .conv n d, h => by
    simp only [okActual] at h
    obtain ⟨en, hn1, hn2, -⟩ := name_eval hA n h.1
    obtain ⟨ed, hd1, hd2⟩ := desig_eval hA d h.2
    refine ⟨_, by simp only [visitActual, hn1, hd1, bind, Except.bind, pure, Except.pure]; rfl, ?_⟩
    rw [astEval_call hn2 (astEvals_one hd2)]; simp [evActual]
theorem desig_eval (hA : Agrees A leaf) : ∀ d : Desig, okDesig d →
    ∃ e, visitDesig d = .ok e ∧ astEval A leaf e = some (evDesig A d)
  | .opn, _ => ⟨_, by simp only [visitDesig]; rfl, by simp [astEval, symMeaning, evDesig]⟩
  | .sub s, h => by
    simp only [okDesig] at h
    obtain ⟨e, h1, h2⟩ := subind_eval hA s h
    exact ⟨e, by simpa [visitDesig] using h1, by simpa [evDesig] using h2⟩
  | .expr x, h => by
    simp only [okDesig] at h
    obtain ⟨e, h1, h2, -⟩ := expression_eval hA x h
    exact ⟨e, by simpa [visitDesig] using h1, by simpa [evDesig] using h2⟩
theorem subind_eval (hA : Agrees A leaf) : ∀ s : SubInd, okSubInd s →
    ∃ e, visitSubInd s = .ok e ∧ astEval A leaf e = some (evSubInd A s)
  | .mk .none tm c, h => by
    simp only [okSubInd] at h
    obtain ⟨et, ht1, ht2, -⟩ := name_eval hA tm h.2.1
    obtain ⟨ec, hc1, hc2⟩ := constr_eval hA c h.2.2 et _ ht2
    exact ⟨ec, by simp only [visitSubInd, visitResol, ht1, bind, Except.bind, pure, Except.pure, hc1], by simpa [evSubInd] using hc2⟩
  | .mk (.name n) tm c, h => by
    simp only [okSubInd, okResol] at h
    obtain ⟨en, hn1, hn2, -⟩ := name_eval hA n h.1
    obtain ⟨et, ht1, ht2, -⟩ := name_eval hA tm h.2.1
    obtain ⟨ec, hc1, hc2⟩ := constr_eval hA c h.2.2 et _ ht2
    refine ⟨.mkBin none en .DEFINE_RESOLVER ec, ?_, ?_⟩
    · simp only [visitSubInd, visitResol, hn1, ht1, bind, Except.bind, pure, Except.pure, hc1]
    · rw [astEval_bin hn2 hc2]; simp [opMeaning, evSubInd]
  | .mk .element tm c, h => by simp [okSubInd, okResol] at h
theorem constr_eval (hA : Agrees A leaf) : ∀ c : Constr, okConstr c → ∀ t v, astEval A leaf t = some v →
    ∃ e, visitConstr t c = .ok e ∧ astEval A leaf e = some (evConstr A v c)
  | .none, _, t, v, ht => ⟨t, by simp [visitConstr], by simpa [evConstr] using ht⟩
  | .range r, h, t, v, ht => by
    simp only [okConstr] at h
    obtain ⟨er, hr1, hr2⟩ := range_eval hA r h
    refine ⟨_, by simp only [visitConstr, hr1, bind, Except.bind, pure, Except.pure]; rfl, ?_⟩
    rw [astEval_bin ht hr2]; simp [opMeaning, evConstr]
  | .array a, h, t, v, ht => by
    simp only [okConstr] at h
    obtain ⟨e, h1, h2⟩ := arrc_eval hA a h t v ht
    exact ⟨e, by simpa [visitConstr] using h1, by simpa [evConstr] using h2⟩
  | .record, h, _, _, _ => by simp [okConstr] at h
theorem range_eval (hA : Agrees A leaf) : ∀ r : Range, okRange r →
    ∃ e, visitRange r = .ok e ∧ astEval A leaf e = some (evRange A r)
  | .attr n sg d, h => by
    simp only [okRange] at h
    obtain ⟨en, hn1, hn2, -⟩ := name_eval hA n h.1
    refine ⟨_, by simp only [visitRange, hn1, bind, Except.bind, pure, Except.pure]; rfl, ?_⟩
    rw [astEval_bin hn2 (ident_eval hA d)]; simp [opMeaning, evRange]
  | .expl r, h => by
    simp only [okRange] at h
    obtain ⟨e, h1, h2⟩ := erange_eval hA r h
    exact ⟨e, by simpa [visitRange] using h1, by simpa [evRange] using h2⟩
theorem arrc_eval (hA : Agrees A leaf) : ∀ a : ArrC, okArrC a → ∀ t v, astEval A leaf t = some v →
    ∃ e, visitArrC t a = .ok e ∧ astEval A leaf e = some (evArrC A v a)
  | .index l c, h, t, v, ht => by
    simp only [okArrC] at h
    obtain ⟨el, hl1, hl2⟩ := discrs_eval hA l h.1
    obtain ⟨e, h1, h2⟩ := elemc_eval hA c h.2 _ _ (astEval_index ht hl2)
    exact ⟨e, by simp only [visitArrC, hl1, bind, Except.bind]; exact h1, by simpa [evArrC] using h2⟩
  | .opn c, h, t, v, ht => by
    simp only [okArrC] at h
    have hall : astEval A leaf (.symb none .ALL) = some A.all := by simp [astEval, symMeaning]
    have hx : astEval A leaf (.mkBin none t .INDEX (.symb none .ALL)) = some (A.index v [A.all]) := by
      rw [astEval_bin ht hall]; rfl
    obtain ⟨e, h1, h2⟩ := elemc_eval hA c h _ _ hx
    exact ⟨e, by simpa [visitArrC] using h1, by simpa [evArrC] using h2⟩
theorem elemc_eval (hA : Agrees A leaf) : ∀ c : ElemC, okElemC c → ∀ t v, astEval A leaf t = some v →
    ∃ e, visitElemC t c = .ok e ∧ astEval A leaf e = some (evElemC A v c)
  | .none, _, t, v, ht => ⟨t, by simp [visitElemC], by simpa [evElemC] using ht⟩
  | .array a, h, t, v, ht => by
    simp only [okElemC] at h
    obtain ⟨e, h1, h2⟩ := arrc_eval hA a h t v ht
    exact ⟨e, by simpa [visitElemC] using h1, by simpa [evElemC] using h2⟩
  | .record, h, _, _, _ => by simp [okElemC] at h
theorem discrs_eval (hA : Agrees A leaf) : ∀ l : List Discr, okDiscrs l →
    ∃ e, visitDiscrs l = .ok e ∧ astEvals A leaf e = some (evDiscrs A l)
  | [], _ => ⟨[], by simp [visitDiscrs], by simp [astEvals, evDiscrs]⟩
  | a :: l, h => by
    simp only [okDiscrs] at h
    obtain ⟨ea, ha1, ha2⟩ := discr_eval hA a h.1
    obtain ⟨el, hl1, hl2⟩ := discrs_eval hA l h.2
    refine ⟨_, by simp only [visitDiscrs, ha1, hl1, bind, Except.bind, pure, Except.pure]; rfl, ?_⟩
    simp [astEvals, ha2, hl2, evDiscrs]
theorem discr_eval (hA : Agrees A leaf) : ∀ d : Discr, okDiscr d →
    ∃ e, visitDiscr d = .ok e ∧ astEval A leaf e = some (evDiscr A d)
  | .sub s, h => by
    simp only [okDiscr] at h
    obtain ⟨e, h1, h2⟩ := subind_eval hA s h
    exact ⟨e, by simpa [visitDiscr] using h1, by simpa [evDiscr] using h2⟩
  | .range r, h => by
    simp only [okDiscr] at h
    obtain ⟨e, h1, h2⟩ := range_eval hA r h
    exact ⟨e, by simpa [visitDiscr] using h1, by simpa [evDiscr] using h2⟩
theorem expression_eval (hA : Agrees A leaf) : ∀ x : Expression, okExpression x →
    ∃ e, visitExpression x = .ok e ∧ astEval A leaf e = some (evExpression A x) ∧ Shape (oneAggE x) e
  | .cond p, h => by simp [okExpression] at h
  | .simple s, h => by
    simp only [okExpression] at h
    obtain ⟨e, h1, h2, h3⟩ := simple_eval hA s h
    exact ⟨e, by simpa [visitExpression] using h1, by simpa [evExpression] using h2, by simpa [oneAggE] using h3⟩
  | .shift a o b, h => by
    simp only [okExpression] at h
    obtain ⟨ea, ha1, ha2, -⟩ := expression_eval hA a h.1
    obtain ⟨eb, hb1, hb2, -⟩ := expression_eval hA b h.2
    refine ⟨_, by simp only [visitExpression, ha1, hb1, bind, Except.bind, pure, Except.pure]; rfl, ?_, by exact shape_op (by cases o <;> decide)⟩
    rw [astEval_bin ha2 hb2]; cases o <;> simp [ShiftOp.toOp, opMeaning, evExpression, ShiftOp.sym]
  | .rel a o b, h => by
    simp only [okExpression] at h
    obtain ⟨ea, ha1, ha2, -⟩ := expression_eval hA a h.1
    obtain ⟨eb, hb1, hb2, -⟩ := expression_eval hA b h.2
    refine ⟨_, by simp only [visitExpression, ha1, hb1, bind, Except.bind, pure, Except.pure]; rfl, ?_, by exact shape_op (by cases o <;> decide)⟩
    rw [astEval_bin ha2 hb2]; cases o <;> simp [RelOp.toOp, opMeaning, evExpression, RelOp.sym]
  | .logic a o b, h => by
    simp only [okExpression] at h
    obtain ⟨ea, ha1, ha2, -⟩ := expression_eval hA a h.1
    obtain ⟨eb, hb1, hb2, -⟩ := expression_eval hA b h.2
    refine ⟨_, by simp only [visitExpression, ha1, hb1, bind, Except.bind, pure, Except.pure]; rfl, ?_, by exact shape_op (by cases o <;> decide)⟩
    rw [astEval_bin ha2 hb2]; cases o <;> simp [LogOp.toOp, opMeaning, evExpression, LogOp.sym]
theorem simple_eval (hA : Agrees A leaf) : ∀ x : Simple, okSimple x →
    ∃ e, visitSimple x = .ok e ∧ astEval A leaf e = some (evSimple A x) ∧ Shape (oneAggS x) e
  | .prim p, h => by
    simp only [okSimple] at h
    obtain ⟨e, h1, h2, h3⟩ := primary_eval hA p h
    exact ⟨e, by simpa [visitSimple] using h1, by simpa [evSimple] using h2, by simpa [oneAggS] using h3⟩
  | .pow a b, h => by
    simp only [okSimple] at h
    obtain ⟨ea, ha1, ha2, ha3⟩ := primary_eval hA a h.1.1
    obtain ⟨eb, hb1, hb2, hb3⟩ := primary_eval hA b h.2.1
    rw [h.1.2] at ha3; rw [h.2.2] at hb3
    refine ⟨.mkBin none ea .POW eb, ?_, ?_, by exact shape_op (by decide)⟩
    · simp only [visitSimple, ha1, hb1, bind, Except.bind, pure, Except.pure, aggToParen_shape ha3, aggToParen_shape hb3]
    · rw [astEval_bin ha2 hb2]; simp [opMeaning, evSimple]
  | .abs s, h => by
    simp only [okSimple] at h
    obtain ⟨es, hs1, hs2, hs3⟩ := simple_eval hA s h.1
    rw [h.2] at hs3
    refine ⟨.mkUn none .ABS es, ?_, ?_, by exact shape_op (by decide)⟩
    · simp only [visitSimple, hs1, bind, Except.bind, pure, Except.pure, aggToParen_shape hs3]
    · rw [astEval_un hs2]; simp [opMeaning, evSimple]
  | .not s, h => by
    simp only [okSimple] at h
    obtain ⟨es, hs1, hs2, hs3⟩ := simple_eval hA s h.1
    rw [h.2] at hs3
    refine ⟨.mkUn none .NEG es, ?_, ?_, by exact shape_op (by decide)⟩
    · simp only [visitSimple, hs1, bind, Except.bind, pure, Except.pure, aggToParen_shape hs3]
    · rw [astEval_un hs2]; simp [opMeaning, evSimple]
  | .logic o s, h => by
    simp only [okSimple] at h
    obtain ⟨es, hs1, hs2, hs3⟩ := simple_eval hA s h.2.1
    rw [h.2.2] at hs3
    have ho := h.1
    obtain ⟨u, hu, hm, hum⟩ : ∃ u, o.toOp.toUnary = .ok u ∧ (∀ v, opMeaning A u [v] = some (A.un (LogOp.sym o) v)) ∧
        u ≠ .MAP_ASSOCIATION := by
      cases o <;> first | exact absurd rfl ho | exact ⟨_, rfl, fun _ => rfl, by decide⟩
    refine ⟨.mkUn none u es, ?_, ?_, shape_op hum⟩
    · simp only [visitSimple, hu, hs1, bind, Except.bind, pure, Except.pure, aggToParen_shape hs3]
    · rw [astEval_un hs2, hm]; simp [evSimple]
  | .sign o s, h => by
    simp only [okSimple] at h
    obtain ⟨es, hs1, hs2, hs3⟩ := simple_eval hA s h.1
    rw [h.2] at hs3
    obtain ⟨u, hu, hm, hum⟩ : ∃ u, o.toOp.toUnary = .ok u ∧ (∀ v, opMeaning A u [v] = some (A.un (SignOp.sym o) v)) ∧
        u ≠ .MAP_ASSOCIATION := by
      cases o <;> exact ⟨_, rfl, fun _ => rfl, by decide⟩
    refine ⟨.mkUn none u es, ?_, ?_, shape_op hum⟩
    · simp only [visitSimple, hu, hs1, bind, Except.bind, pure, Except.pure, aggToParen_shape hs3]
    · rw [astEval_un hs2, hm]; simp [evSimple]
  | .mul a o b, h => by
    simp only [okSimple] at h
    obtain ⟨ea, ha1, ha2, ha3⟩ := simple_eval hA a h.1.1
    obtain ⟨eb, hb1, hb2, hb3⟩ := simple_eval hA b h.2.1
    rw [h.1.2] at ha3; rw [h.2.2] at hb3
    refine ⟨.mkBin none ea o.toOp eb, ?_, ?_, by exact shape_op (by cases o <;> decide)⟩
    · simp only [visitSimple, ha1, hb1, bind, Except.bind, pure, Except.pure, aggToParen_shape ha3, aggToParen_shape hb3]
    · rw [astEval_bin ha2 hb2]; cases o <;> simp [MulOp.toOp, opMeaning, evSimple, MulOp.sym]
  | .add a o b, h => by
    simp only [okSimple] at h
    obtain ⟨ea, ha1, ha2, ha3⟩ := simple_eval hA a h.1.1
    obtain ⟨eb, hb1, hb2, hb3⟩ := simple_eval hA b h.2.1
    rw [h.1.2] at ha3; rw [h.2.2] at hb3
    refine ⟨.mkBin none ea o.toOp eb, ?_, ?_, by exact shape_op (by cases o <;> decide)⟩
    · simp only [visitSimple, ha1, hb1, bind, Except.bind, pure, Except.pure, aggToParen_shape ha3, aggToParen_shape hb3]
    · rw [astEval_bin ha2 hb2]; cases o <;> simp [AddOp.toOp, opMeaning, evSimple, AddOp.sym]
theorem primary_eval (hA : Agrees A leaf) : ∀ x : Primary, okPrimary x →
    ∃ e, visitPrimary x = .ok e ∧ astEval A leaf e = some (evPrimary A x) ∧ Shape (oneAggP x) e
  | .name n, h => by
    simp only [okPrimary] at h
    obtain ⟨e, h1, h2, h3⟩ := name_eval hA n h
    exact ⟨e, by simpa [visitPrimary] using h1, by simpa [evPrimary] using h2, h3 _⟩
  | .dec t, h => by
    simp only [okPrimary] at h
    obtain ⟨e, he⟩ := h
    exact ⟨e, by simpa [visitPrimary] using he, by simpa [evPrimary] using (dec_eval hA he).1, (dec_eval hA he).2 _⟩
  | .decUnit t n, h => by
    simp only [okPrimary] at h
    obtain ⟨⟨e, he⟩, h⟩ := h
    obtain ⟨en, hn1, hn2, -⟩ := name_eval hA n h
    refine ⟨_, by simp only [visitPrimary, hn1, he, bind, Except.bind, pure, Except.pure]; rfl, ?_, by exact shape_op (by decide)⟩
    rw [astEval_bin (dec_eval hA he).1 hn2]; simp [opMeaning, evPrimary]
  | .based t, h => by
    simp only [okPrimary] at h
    obtain ⟨v, hv⟩ := h
    refine ⟨_, by simp only [visitPrimary, hv, bind, Except.bind, pure, Except.pure]; rfl, ?_, by constructor <;> simp⟩
    simp [astEval, evPrimary, hA.based t v hv]
  | .basedUnit t n, h => by
    simp only [okPrimary] at h
    obtain ⟨⟨v, hv⟩, h⟩ := h
    obtain ⟨en, hn1, hn2, -⟩ := name_eval hA n h
    refine ⟨_, by simp only [visitPrimary, hn1, hv, bind, Except.bind, pure, Except.pure]; rfl, ?_, by exact shape_op (by decide)⟩
    have : astEval A leaf (.int none v) = some (A.based t) := by simp [astEval, hA.based t v hv]
    rw [astEval_bin this hn2]; simp [opMeaning, evPrimary]
  | .bits t, h => by
    simp only [okPrimary] at h
    obtain ⟨v, hv⟩ := h
    refine ⟨_, by simp only [visitPrimary, hv, bind, Except.bind, pure, Except.pure]; rfl, ?_, by constructor <;> simp⟩
    simp [astEval, evPrimary, hA.bits t v hv]
  | .null, _ => ⟨_, by simp only [visitPrimary]; rfl, by simp [astEval, symMeaning, evPrimary], by constructor <;> simp⟩
  | .newSub s, h => by
    simp only [okPrimary] at h
    obtain ⟨es, hs1, hs2⟩ := subind_eval hA s h
    refine ⟨_, by simp only [visitPrimary, hs1, bind, Except.bind, pure, Except.pure]; rfl, ?_, by exact shape_op (by decide)⟩
    have : astEval A leaf (.id none (c! "new")) = some A.newKw := by simp [astEval, hA.newKw]
    rw [astEval_bin this hs2]; simp [opMeaning, evPrimary]
  | .newQual t l, h => by
    simp only [okPrimary] at h
    obtain ⟨et, ht1, ht2, -⟩ := name_eval hA t h.1
    obtain ⟨el, hl1, hl2, -⟩ := agg_eval hA l h.2
    refine ⟨_, by simp only [visitPrimary, ht1, hl1, bind, Except.bind, pure, Except.pure]; rfl, ?_, by exact shape_op (by decide)⟩
    have : astEval A leaf (.id none (c! "new")) = some A.newKw := by simp [astEval, hA.newKw]
    rw [astEval_bin this (vb := A.bin "'" (evName A t) (evAgg A l)) (by rw [astEval_bin ht2 hl2]; rfl)]; simp [opMeaning, evPrimary]
  | .agg l, h => by
    simp only [okPrimary] at h
    obtain ⟨el, hl1, hl2, hl3⟩ := agg_eval hA l h
    exact ⟨mkAggregate el, by simp only [visitPrimary, hl1, bind, Except.bind, pure, Except.pure], by simpa [evPrimary] using hl2, hl3⟩
  | .qual t l, h => by
    simp only [okPrimary] at h
    obtain ⟨et, ht1, ht2, -⟩ := name_eval hA t h.1
    obtain ⟨el, hl1, hl2, -⟩ := agg_eval hA l h.2
    refine ⟨_, by simp only [visitPrimary, ht1, hl1, bind, Except.bind, pure, Except.pure]; rfl, ?_, by exact shape_op (by decide)⟩
    rw [astEval_bin ht2 hl2]; simp [opMeaning, evPrimary]
theorem agg_eval (hA : Agrees A leaf) : ∀ l : List Elem, okElems l →
    ∃ el, visitElems l = .ok el ∧ astEval A leaf (mkAggregate el) = some (evAgg A l) ∧ Shape (oneAggP (.agg l)) (mkAggregate el)
  | [], _ => ⟨[], by simp [visitElems], by simp [mkAggregate, astEval, astEvals, evAgg, evElems], by constructor <;> simp [mkAggregate]⟩
  | [.pos x], h => by
    simp only [okElems, okElem] at h
    obtain ⟨e, h1, h2, h3⟩ := expression_eval hA x h.1
    have hm : mkAggregate [e] = e := by
      unfold mkAggregate
      simp only
      split
      · rename_i p l; exact absurd rfl (h3.map p l)
      · rfl
    refine ⟨[e], by simp only [visitElems, visitElem, h1, bind, Except.bind, pure, Except.pure], ?_, ?_⟩
    · rw [hm]; simpa [evAgg] using h2
    · rw [hm]; simpa [oneAggP] using h3
  | [.named c x], h => by
    simp only [okElems] at h
    obtain ⟨e, h1, h2, p, l, he⟩ := elem_eval hA (.named c x) h.1
    have he := he rfl
    have hm : mkAggregate [e] = .arr none [e] := by rw [he]; rfl
    refine ⟨[e], by simp only [visitElems, h1, bind, Except.bind, pure, Except.pure], ?_, ?_⟩
    · rw [hm]; simp [astEval, astEvals, h2, evAgg, evElems]
    · rw [hm]; constructor <;> simp [oneAggP]
  | a :: b :: l, h => by
    simp only [okElems] at h
    obtain ⟨ea, ha1, ha2, -⟩ := elem_eval hA a h.1
    obtain ⟨eb, hb1, hb2, -⟩ := elem_eval hA b h.2.1
    obtain ⟨el, hl1, hl2⟩ := elems_eval hA l h.2.2
    refine ⟨ea :: eb :: el, by simp only [visitElems, ha1, hb1, hl1, bind, Except.bind, pure, Except.pure], ?_, ?_⟩
    · have : mkAggregate (ea :: eb :: el) = .arr none (ea :: eb :: el) := rfl
      rw [this]
      cases a <;> simp [astEval, astEvals, ha2, hb2, hl2, evAgg, evElems]
    · constructor <;> simp [mkAggregate]
theorem elems_eval (hA : Agrees A leaf) : ∀ l : List Elem, okElems l →
    ∃ e, visitElems l = .ok e ∧ astEvals A leaf e = some (evElems A l)
  | [], _ => ⟨[], by simp [visitElems], by simp [astEvals, evElems]⟩
  | a :: l, h => by
    simp only [okElems] at h
    obtain ⟨ea, ha1, ha2, -⟩ := elem_eval hA a h.1
    obtain ⟨el, hl1, hl2⟩ := elems_eval hA l h.2
    refine ⟨_, by simp only [visitElems, ha1, hl1, bind, Except.bind, pure, Except.pure]; rfl, ?_⟩
    simp [astEvals, ha2, hl2, evElems]
theorem elem_eval (hA : Agrees A leaf) : ∀ x : Elem, okElem x →
    ∃ e, visitElem x = .ok e ∧ astEval A leaf e = some (evElem A x) ∧
      ∃ p l, (match x with | .named .. => true | _ => false) = true → e = .op p .MAP_ASSOCIATION l
  | .pos x, h => by
    simp only [okElem] at h
    obtain ⟨e, h1, h2, -⟩ := expression_eval hA x h
    exact ⟨e, by simpa [visitElem] using h1, by simpa [evElem] using h2, none, [], by simp⟩
  | .named [c] x, h => by
    simp only [okElem, okChoices] at h
    obtain ⟨ec, hc1, hc2⟩ := choice_eval hA c h.1.1
    obtain ⟨e, h1, h2, -⟩ := expression_eval hA x h.2.2
    refine ⟨.mkBin none ec .MAP_ASSOCIATION e, ?_, ?_, none, _, fun _ => rfl⟩
    · simp only [visitElem, visitChoices, h1, hc1, bind, Except.bind, pure, Except.pure]
    · rw [astEval_bin hc2 h2]; simp [opMeaning, evElem]
  | .named [] x, h => by simp [okElem] at h
  | .named (c :: d :: l) x, h => by simp [okElem] at h
theorem choice_eval (hA : Agrees A leaf) : ∀ x : Choice, okChoice x →
    ∃ e, visitChoice x = .ok e ∧ astEval A leaf e = some (evChoice A x)
  | .discr d, h => by
    simp only [okChoice] at h
    obtain ⟨e, h1, h2⟩ := discr_eval hA d h
    exact ⟨e, by simpa [visitChoice] using h1, by simpa [evChoice] using h2⟩
  | .simple s, h => by
    simp only [okChoice] at h
    obtain ⟨e, h1, h2, -⟩ := simple_eval hA s h
    exact ⟨e, by simpa [visitChoice] using h1, by simpa [evChoice] using h2⟩
  | .others, _ => ⟨_, by simp only [visitChoice]; rfl, by simp [astEval, symMeaning, evChoice]⟩
end

end Verif.Vhdl
