import Verif.VhdlTextFacts
/-!
# The parse of a VHDL expression
-/
namespace Verif.Vhdl
open P Verif.Spec Verif.Spec.Lrm

/-! ## The supported fragment -/

mutual
/-- The expression (in any number of parentheses) is an aggregate of one named element. -/
def LPrim.oneAgg : LPrim → Bool
  | .group (.named _ _ _) [] => true
  | .group (.pos e) [] => LExpr.oneAgg e
  | _ => false
def LExpr.oneAgg : LExpr → Bool
  | .one r => LRel.oneAgg r
  | _ => false
def LRel.oneAgg : LRel → Bool
  | .one r => LShift.oneAgg r
  | _ => false
def LShift.oneAgg : LShift → Bool
  | .one r => LSimple.oneAgg r
  | _ => false
def LSimple.oneAgg : LSimple → Bool
  | .one r => LTerm.oneAgg r
  | _ => false
def LTerm.oneAgg : LTerm → Bool
  | .one r => LFactor.oneAgg r
  | _ => false
def LFactor.oneAgg : LFactor → Bool
  | .prim r => LPrim.oneAgg r
  | _ => false
end

mutual
/-- The expressions of which the AST keeps the meaning (compare `okExpression`): all literals convert; no `??`, unary `xnor`,
alternatives in choices, and no aggregate of one named element directly as operand of an operator of `simple_expression`. -/
def LName.Ok : LName → Prop
  | .lit l => litOk l
  | .sel n s => LName.Ok n ∧ (match s with | .lit l => litOk l | .all => True)
  | .attr n _ => LName.Ok n
  | .call n a l => LName.Ok n ∧ LArg.Ok a ∧ argsOk l
  | .slice n a _ b => LName.Ok n ∧ LSimple.Ok a ∧ LSimple.Ok b
def LArg.Ok : LArg → Prop
  | .pos e => LExpr.Ok e
  | .opn => True
  | .named f e => LName.Ok f ∧ LExpr.Ok e
def argsOk : List LArg → Prop
  | [] => True
  | a :: l => LArg.Ok a ∧ argsOk l
def LPrim.Ok : LPrim → Prop
  | .name n => LName.Ok n
  | .dec t => ∃ e, visitDec t = .ok e
  | .decUnit t u => (∃ e, visitDec t = .ok e) ∧ LName.Ok u
  | .based t => ∃ v, vhdlBased t = .ok v
  | .basedUnit t u => (∃ v, vhdlBased t = .ok v) ∧ LName.Ok u
  | .bits t => ∃ v, vhdlBitString t = .ok v
  | .null => True
  | .group e l => LElem.Ok e ∧ elemsOk l
  | .qual n e l => LName.Ok n ∧ LElem.Ok e ∧ elemsOk l
def LElem.Ok : LElem → Prop
  | .pos e => LExpr.Ok e
  | .named c [] e => LChoice.Ok c ∧ LExpr.Ok e
  | .named _ (_ :: _) _ => False
def elemsOk : List LElem → Prop
  | [] => True
  | a :: l => LElem.Ok a ∧ elemsOk l
def LChoice.Ok : LChoice → Prop
  | .expr s => LSimple.Ok s
  | .range a _ b => LSimple.Ok a ∧ LSimple.Ok b
  | .others => True
def LFactor.Ok : LFactor → Prop
  | .prim p => LPrim.Ok p
  | .pow a b => (LPrim.Ok a ∧ LPrim.oneAgg a = false) ∧ LPrim.Ok b ∧ LPrim.oneAgg b = false
  | .abs p => LPrim.Ok p ∧ LPrim.oneAgg p = false
  | .not p => LPrim.Ok p ∧ LPrim.oneAgg p = false
  | .red o p => o ≠ .xnor ∧ LPrim.Ok p ∧ LPrim.oneAgg p = false
def LTerm.Ok : LTerm → Prop
  | .one f => LFactor.Ok f
  | .mul t _ f => (LTerm.Ok t ∧ LTerm.oneAgg t = false) ∧ LFactor.Ok f ∧ LFactor.oneAgg f = false
def LSimple.Ok : LSimple → Prop
  | .one t => LTerm.Ok t
  | .signed _ t => LTerm.Ok t ∧ LTerm.oneAgg t = false
  | .add s _ t => (LSimple.Ok s ∧ LSimple.oneAgg s = false) ∧ LTerm.Ok t ∧ LTerm.oneAgg t = false
def LShift.Ok : LShift → Prop
  | .one s => LSimple.Ok s
  | .shift a _ b => LSimple.Ok a ∧ LSimple.Ok b
def LRel.Ok : LRel → Prop
  | .one s => LShift.Ok s
  | .rel a _ b => LShift.Ok a ∧ LShift.Ok b
def LExpr.Ok : LExpr → Prop
  | .cond _ => False
  | .one r => LRel.Ok r
  | .logic a _ b => LExpr.Ok a ∧ LRel.Ok b
end

/-! ## What comes behind -/

/-- The next token is not one of these. -/
def Not' (F : VT → Bool) (R : List VTok) : Prop := ∀ t, next R = some t → F t = false

def mOp : VT → Bool
  | .MUL => true
  | .DIV => true
  | .kw .MOD => true
  | .kw .REM => true
  | _ => false
def aOp : VT → Bool
  | .PLUS => true
  | .MINUS => true
  | .AMPERSAND => true
  | _ => false
def hOp : VT → Bool
  | .kw .SLL => true
  | .kw .SRL => true
  | .kw .SLA => true
  | .kw .SRA => true
  | .kw .ROL => true
  | .kw .ROR => true
  | _ => false
def rOp : VT → Bool
  | .EQ => true
  | .NE => true
  | .LT => true
  | .CONASGN => true
  | .GT => true
  | .GE => true
  | .EQ_MATCH => true
  | .NE_MATCH => true
  | .LT_MATCH => true
  | .LE_MATCH => true
  | .GT_MATCH => true
  | .GE_MATCH => true
  | _ => false
def lOp : VT → Bool
  | .kw .AND => true
  | .kw .OR => true
  | .kw .NAND => true
  | .kw .NOR => true
  | .kw .XOR => true
  | .kw .XNOR => true
  | _ => false

/-- Behind a primary, a factor, a term, a simple expression, a shift expression, a relation, an expression. -/
structure EndP (R : List VTok) : Prop where
  name : Not' nameStart R
  part : Not' partStart R
structure EndF (R : List VTok) : Prop extends EndP R where
  pow : next R ≠ some .DOUBLESTAR
structure EndT (R : List VTok) : Prop extends EndF R where
  mul : Not' mOp R
structure EndS (R : List VTok) : Prop extends EndT R where
  add : Not' aOp R
structure EndH (R : List VTok) : Prop extends EndS R where
  shift : Not' hOp R
structure EndR (R : List VTok) : Prop extends EndH R where
  rel : Not' rOp R
structure EndE (R : List VTok) : Prop extends EndR R where
  logic : Not' lOp R

theorem Not'.cons {F : VT → Bool} {y : VTok} {s : List VTok} (h : F y.ty = false) : Not' F (y :: s) := by
  intro t ht; cases ht; exact h

theorem EndP.stuck {R : List VTok} (h : EndP R) : Stuck R := stuck_of_next h.part

theorem opTok_split {t : VT} (h : opTok t = false) :
    t ≠ .DOUBLESTAR ∧ mOp t = false ∧ aOp t = false ∧ hOp t = false ∧ rOp t = false ∧ lOp t = false := by
  refine ⟨?_, ?_, ?_, ?_, ?_, ?_⟩
  · rintro rfl; cases h
  · unfold mOp; split <;> first | rfl | cases h
  · unfold aOp; split <;> first | rfl | cases h
  · unfold hOp; split <;> first | rfl | cases h
  · unfold rOp; split <;> first | rfl | cases h
  · unfold lOp; split <;> first | rfl | cases h

theorem endE_of {R : List VTok} (h : ∀ t, next R = some t → nameStart t = false ∧ partStart t = false ∧ opTok t = false) : EndE R where
  name t ht := (h t ht).1
  part t ht := (h t ht).2.1
  pow ht := (opTok_split (h _ ht).2.2).1 rfl
  mul _ ht := (opTok_split (h _ ht).2.2).2.1
  add _ ht := (opTok_split (h _ ht).2.2).2.2.1
  shift _ ht := (opTok_split (h _ ht).2.2).2.2.2.1
  rel _ ht := (opTok_split (h _ ht).2.2).2.2.2.2.1
  logic _ ht := (opTok_split (h _ ht).2.2).2.2.2.2.2

theorem Closes.endE {R : List VTok} (h : Closes R) : EndE R := by
  obtain ⟨y, s, rfl, h1, h2, h3, -⟩ := h
  exact endE_of (by intro t ht; cases ht; exact ⟨h1, h2, h3⟩)

/-- In the middle of a name. -/
def Dp (r : List VTok) : Prop := ∃ y s, r = y :: s ∧ partStart y.ty = true

theorem partStart_facts {t : VT} (h : partStart t = true) : opTok t = false ∧ nameStart t = false := by
  unfold partStart at h
  split at h <;> first | exact ⟨rfl, rfl⟩ | cases h

theorem Dp.not {r : List VTok} (h : Dp r) :
    next r ≠ some .DOUBLESTAR ∧ Not' mOp r ∧ Not' aOp r ∧ Not' hOp r ∧ Not' rOp r ∧ Not' lOp r := by
  obtain ⟨y, s, rfl, hy⟩ := h
  obtain ⟨h1, h2, h3, h4, h5, h6⟩ := opTok_split (partStart_facts hy).1
  exact ⟨by simpa using h1, .cons h2, .cons h3, .cons h4, .cons h5, .cons h6⟩

theorem mul_pos {o : MulOp} {y : VTok} (h : y.ty = mulTy o) (r : List VTok) : multiplyingOperator (y :: r) = [(o, r)] := by
  cases o <;> simp [multiplyingOperator, toks, alts, or_apply, bind_apply, pure_apply, tok_cons, h, mulTy]
theorem add_pos {o : AddOp} {y : VTok} (h : y.ty = addTy o) (r : List VTok) : addingOperator (y :: r) = [(o, r)] := by
  cases o <;> simp [addingOperator, toks, alts, or_apply, bind_apply, pure_apply, tok_cons, h, addTy]
theorem sign_pos {o : SignOp} {y : VTok} (h : y.ty = signTy o) (r : List VTok) : sign (y :: r) = [(o, r)] := by
  cases o <;> simp [sign, toks, alts, or_apply, bind_apply, pure_apply, tok_cons, h, signTy]
theorem shift_pos {o : ShiftOp} {y : VTok} (h : y.ty = shiftTy o) (r : List VTok) : shiftOperator (y :: r) = [(o, r)] := by
  cases o <;> simp [shiftOperator, toks, alts, or_apply, bind_apply, pure_apply, tok_cons, h, shiftTy]
theorem rel_pos {o : RelOp} {y : VTok} (h : y.ty = relTy o) (r : List VTok) : relationalOperator (y :: r) = [(o, r)] := by
  cases o <;> simp [relationalOperator, toks, alts, or_apply, bind_apply, pure_apply, tok_cons, h, relTy]
theorem logic_pos {o : LogOp} {y : VTok} (h : y.ty = logTy o) (r : List VTok) : logicalOperator (y :: r) = [(o, r)] := by
  cases o <;> simp [logicalOperator, toks, alts, or_apply, bind_apply, pure_apply, tok_cons, h, logTy]
theorem dir_pos {d : Bool} {y : VTok} (h : y.ty = dirTy d) (r : List VTok) : direction (y :: r) = [(d, r)] := by
  cases d <;> simp [direction, toks, alts, or_apply, bind_apply, pure_apply, tok_cons, h, dirTy]

theorem toks_not {α : Type} {l : List (VT × α)} {F : VT → Bool} (hF : ∀ x ∈ l, F x.1 = true) {r : List VTok} (h : Not' F r) :
    toks l r = [] :=
  toks_next fun t a hm hn => by
    have h1 := hF _ hm
    rw [h t hn] at h1; cases h1

theorem mul_neg' {r : List VTok} (h : Not' mOp r) : multiplyingOperator r = [] := toks_not (by decide) h
theorem add_neg' {r : List VTok} (h : Not' aOp r) : addingOperator r = [] := toks_not (by decide) h
theorem shift_neg' {r : List VTok} (h : Not' hOp r) : shiftOperator r = [] := toks_not (by decide) h
theorem rel_neg' {r : List VTok} (h : Not' rOp r) : relationalOperator r = [] := toks_not (by decide) h
theorem logic_neg' {r : List VTok} (h : Not' lOp r) : logicalOperator r = [] := toks_not (by decide) h

theorem prec_pos {α : Type} {p i : Nat} (h : p ≤ i) (x : P α) : prec p i x = x := if_pos h
theorem prec_neg {α : Type} {p i : Nat} (h : ¬ p ≤ i) (x : P α) (r : List VTok) : prec p i x r = [] := by rw [prec, if_neg h]; rfl
theorem prec_nil {α : Type} {p i : Nat} {x : P α} {r : List VTok} (h : x r = []) : prec p i x r = [] := by
  rw [prec]; split
  · exact h
  · rfl

theorem or_nil {α : Type} {p q : P α} {r : List VTok} (h1 : p r = []) (h2 : q r = []) : P.or p q r = [] := by
  rw [or_apply, h1, h2]; rfl

theorem simpleStep_nil {E : Env} {p : Nat} {a : Simple} {r : List VTok} (h1 : 3 < p ∨ Not' mOp r) (h2 : 1 < p ∨ Not' aOp r) :
    simpleStep E p a r = [] := by
  refine or_nil ?_ ?_
  · rcases h1 with h | h
    · exact prec_neg (by omega) _ _
    · exact prec_nil (bind_nil (mul_neg' h))
  · rcases h2 with h | h
    · exact prec_neg (by omega) _ _
    · exact prec_nil (bind_nil (add_neg' h))

theorem expressionStep_nil {E : Env} {p : Nat} {a : Expression} {r : List VTok} (h1 : 3 < p ∨ Not' hOp r) (h2 : 2 < p ∨ Not' rOp r)
    (h3 : 1 < p ∨ Not' lOp r) : expressionStep E p a r = [] := by
  refine or_nil ?_ (or_nil ?_ ?_)
  · rcases h1 with h | h
    · exact prec_neg (by omega) _ _
    · exact prec_nil (bind_nil (shift_neg' h))
  · rcases h2 with h | h
    · exact prec_neg (by omega) _ _
    · exact prec_nil (bind_nil (rel_neg' h))
  · rcases h3 with h | h
    · exact prec_neg (by omega) _ _
    · exact prec_nil (bind_nil (logic_neg' h))

/-- A dead rest stays dead. -/
theorem simple_dead {E : Env} {p : Nat} (m : Nat) (a : Simple) (s : List VTok) (hs : Dp s) :
    ∀ x ∈ loopN (simpleStep E p) m a s, Dp x.2 := by
  intro x hx
  rw [loopN_stop (simpleStep_nil (.inr hs.not.2.1) (.inr hs.not.2.2.1))] at hx
  simp only [List.mem_singleton] at hx
  subst hx; exact hs

theorem expression_dead {E : Env} {p : Nat} (m : Nat) (a : Expression) (s : List VTok) (hs : Dp s) :
    ∀ x ∈ loopN (expressionStep E p) m a s, Dp x.2 := by
  intro x hx
  rw [loopN_stop (expressionStep_nil (.inr hs.not.2.2.2.1) (.inr hs.not.2.2.2.2.1) (.inr hs.not.2.2.2.2.2))] at hx
  simp only [List.mem_singleton] at hx
  subst hx; exact hs

/-! ## Lists -/

section
variable {α β : Type} {p : P α} {sep close : VT} {T : β → List VTok → Prop} {M : α → β → Prop} {LT : List β → List VTok → Prop} {k : Nat}

/-- Behind an element neither a separator nor the end. -/
def De (sep close : VT) (s : List VTok) : Prop := next s ≠ some sep ∧ next s ≠ some close

/-- Further elements of a list, each behind a separator. `D`: a rest that is no end of an element. -/
theorem many_firstD {D : List VTok → Prop} {C : List VTok → Prop} (hC : ∀ R, C R → next R ≠ some sep) (hD : ∀ s, D s → next s ≠ some sep)
    (hnil : ∀ w, LT [] w → w = [])
    (hcons : ∀ b l w, LT (b :: l) w → ∃ x u v, w = x :: (u ++ v) ∧ x.ty = sep ∧ T b u ∧ LT l v)
    (good : ∀ b u R, T b u → u.length ≤ k → (next R = some sep ∨ C R) → ∃ a, M a b ∧ First D p (u ++ R) a R) :
    ∀ (l : List β) (w : List VTok), LT l w → w.length ≤ k → ∀ R, C R → ∀ m, w.length ≤ m →
      ∃ as, List.Forall₂ M as l ∧ First D (manyN (do let _ ← tok sep; p) m) (w ++ R) as R
  | [], w, h, hk, R, hR, m, hm => by
    rw [hnil w h]
    refine ⟨[], .nil, ?_⟩
    cases m with
    | zero => exact First.ret _ _
    | succ m =>
      have e : tok sep R = [] := tok_next (hC R hR)
      exact First.orN (bind_nil (bind_nil e)) (First.ret _ _)
  | b :: l, w, h, hk, R, hR, m, hm => by
    obtain ⟨x, u, v, rfl, hx, hu, hv⟩ := hcons b l w h
    simp only [List.length_cons, List.length_append] at hk hm
    obtain ⟨m, rfl⟩ : ∃ m', m = m' + 1 := ⟨m - 1, by omega⟩
    have hnext : next (v ++ R) = some sep ∨ C (v ++ R) := by
      cases l with
      | nil => rw [hnil v hv]; exact .inr hR
      | cons b' l =>
        obtain ⟨x', u', v', rfl, hx', -⟩ := hcons b' l v hv
        left; rw [List.cons_append, next_cons, hx']
    obtain ⟨a, ha, fa⟩ := good b u (v ++ R) hu (by omega) hnext
    obtain ⟨as, has, fas⟩ := many_firstD hC hD hnil hcons good l v hv (by omega) R hR m (by omega)
    refine ⟨a :: as, .cons ha has, ?_⟩
    rw [List.cons_append, List.append_assoc]
    refine First.orL ?_
    have f1 : First D (do let _ ← tok sep; p) (x :: (u ++ (v ++ R))) a (v ++ R) :=
      First.bindH (First.tok hx _) fa
    refine f1.bind fas.map ?_
    intro c s hs y hy
    obtain ⟨l', s', h1, h2⟩ := mem_bind.1 hy
    rw [mem_pure] at h2; subst h2
    have e : tok sep s = [] := tok_next (hD s hs)
    cases m with
    | zero => rw [manyN, mem_pure] at h1; cases h1; exact hs
    | succ m =>
      rcases mem_or.1 h1 with h | h
      · rw [bind_nil (bind_nil e)] at h; cases h
      · rw [mem_pure] at h; cases h; exact hs

theorem sepBy_firstD {D : List VTok → Prop} {C : List VTok → Prop} (hC : ∀ R, C R → next R ≠ some sep) (hD : ∀ s, D s → next s ≠ some sep)
    (hnil : ∀ w, LT [] w → w = [])
    (hcons : ∀ b l w, LT (b :: l) w → ∃ x u v, w = x :: (u ++ v) ∧ x.ty = sep ∧ T b u ∧ LT l v)
    (good : ∀ b u R, T b u → u.length ≤ k → (next R = some sep ∨ C R) → ∃ a, M a b ∧ First D p (u ++ R) a R)
    (b : β) (l : List β) (u w : List VTok) (hb : T b u) (hl : LT l w) (hk : (u ++ w).length ≤ k) (R : List VTok) (hR : C R) :
    ∃ a as, M a b ∧ List.Forall₂ M as l ∧ First D (sepBy sep p) (u ++ (w ++ R)) (a :: as) R := by
  rw [List.length_append] at hk
  have hnext : next (w ++ R) = some sep ∨ C (w ++ R) := by
    cases l with
    | nil => rw [hnil w hl]; exact .inr hR
    | cons b' l =>
      obtain ⟨x', u', v', rfl, hx', -⟩ := hcons b' l w hl
      left; rw [List.cons_append, next_cons, hx']
  obtain ⟨a, ha, fa⟩ := good b u (w ++ R) hb (by omega) hnext
  obtain ⟨as, has, fas⟩ := many_firstD hC hD hnil hcons good l w hl (by omega) R hR (w ++ R).length (by simp)
  refine ⟨a, as, ha, has, ?_⟩
  have fas' : First D (many (do let _ ← tok sep; p)) (w ++ R) as R := fas
  refine fa.bind fas'.map ?_
  intro c s hs y hy
  obtain ⟨l', s', h1, h2⟩ := mem_bind.1 hy
  rw [mem_pure] at h2; subst h2
  have e : tok sep s = [] := tok_next (hD s hs)
  rw [many] at h1
  cases hm : s.length with
  | zero => rw [hm, manyN, mem_pure] at h1; cases h1; exact hs
  | succ m =>
    rw [hm] at h1
    rcases mem_or.1 h1 with h | h
    · rw [bind_nil (bind_nil e)] at h; cases h
    · rw [mem_pure] at h; cases h; exact hs

theorem sepBy_first (hsc : sep ≠ close) (hnil : ∀ w, LT [] w → w = [])
    (hcons : ∀ b l w, LT (b :: l) w → ∃ x u v, w = x :: (u ++ v) ∧ x.ty = sep ∧ T b u ∧ LT l v)
    (good : ∀ b u R, T b u → u.length ≤ k → (next R = some sep ∨ next R = some close) →
      ∃ a, M a b ∧ First (De sep close) p (u ++ R) a R)
    (b : β) (l : List β) (u w : List VTok) (hb : T b u) (hl : LT l w) (hk : (u ++ w).length ≤ k) (R : List VTok) (hR : next R = some close) :
    ∃ a as, M a b ∧ List.Forall₂ M as l ∧ First (De sep close) (sepBy sep p) (u ++ (w ++ R)) (a :: as) R :=
  sepBy_firstD (C := fun R => next R = some close) (fun R hR => by rw [hR]; exact fun h => hsc (Option.some.inj h).symm) (fun _ hs => hs.1) hnil
    hcons good b l u w hb hl hk R hR

end

end Verif.Vhdl
