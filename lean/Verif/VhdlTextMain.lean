import Verif.VhdlTextLemmas
/-!
# The parse of a VHDL expression: induction over the length of the text
-/
namespace Verif.Vhdl
open P Verif.Spec Verif.Spec.Lrm

section
variable {V : Type} (A : Alg V)

/-- The choice is `others`. -/
def isOthersC : Choice → Bool
  | .others => true
  | _ => false
def isOthersL : LChoice → Bool
  | .others => true
  | _ => false

/-- The procedure and the arguments of a name as a procedure call. -/
def evCalls : Name → V × List V
  | .assoc n l => (evName A n, evAssocs A l)
  | .slice n r => (evName A n, [evERange A r])
  | n => (evName A n, [])
def LName.calls : LName → V × List V
  | .call n a l => (n.eval A, a.eval A :: argsEval A l)
  | .slice n a d b => (n.eval A, [A.bin (dirSym d) (a.eval A) (b.eval A)])
  | n => (n.eval A, [])
/-- The literal a name consists of. -/
def nameLitOf : Name → Option NameLit
  | .lit l => some l
  | _ => none
def LName.litOf : LName → Option NameLit
  | .lit l => some l
  | _ => none
/-- The literal the name of the procedure consists of. -/
def callLit : Name → Option NameLit
  | .assoc n _ => nameLitOf n
  | .slice n _ => nameLitOf n
  | n => nameLitOf n
def LName.callLit : LName → Option NameLit
  | .call n _ _ => LName.litOf n
  | .slice n _ _ _ => LName.litOf n
  | n => LName.litOf n

/-- A tree means the same as the text. -/
structure MN (t : Name) (n : LName) : Prop where
  ev : evName A t = n.eval A
  ok : LName.Ok n → okName t
  call : evCalls A t = LName.calls A n
  lit : nameLitOf t = LName.litOf n
  plit : Vhdl.callLit t = LName.callLit n
structure MP (t : Primary) (p : LPrim) : Prop where
  ev : evPrimary A t = p.eval A
  ok : LPrim.Ok p → okPrimary t
  agg : oneAggP t = LPrim.oneAgg p
structure MF (t : Simple) (p : LFactor) : Prop where
  ev : evSimple A t = p.eval A
  ok : LFactor.Ok p → okSimple t
  agg : oneAggS t = LFactor.oneAgg p
structure MT (t : Simple) (p : LTerm) : Prop where
  ev : evSimple A t = p.eval A
  ok : LTerm.Ok p → okSimple t
  agg : oneAggS t = LTerm.oneAgg p
structure MS (t : Simple) (p : LSimple) : Prop where
  ev : evSimple A t = p.eval A
  ok : LSimple.Ok p → okSimple t
  agg : oneAggS t = LSimple.oneAgg p
structure MH (t : Expression) (p : LShift) : Prop where
  ev : evExpression A t = p.eval A
  ok : LShift.Ok p → okExpression t
  agg : oneAggE t = LShift.oneAgg p
structure MR (t : Expression) (p : LRel) : Prop where
  ev : evExpression A t = p.eval A
  ok : LRel.Ok p → okExpression t
  agg : oneAggE t = LRel.oneAgg p
structure ME (t : Expression) (p : LExpr) : Prop where
  ev : evExpression A t = p.eval A
  ok : LExpr.Ok p → okExpression t
  agg : oneAggE t = LExpr.oneAgg p
structure MA (t : Actual) (e : LExpr) : Prop where
  ev : evActual A t = e.eval A
  ok : LExpr.Ok e → okActual t
structure MArg (t : Assoc) (a : LArg) : Prop where
  ev : evAssoc A t = a.eval A
  ok : LArg.Ok a → okAssoc t
structure MC (t : Choice) (c : LChoice) : Prop where
  ev : evChoice A t = c.eval A
  ok : LChoice.Ok c → okChoice t
  oth : isOthersC t = isOthersL c
structure ML (t : Elem) (e : LElem) : Prop where
  ev : evElem A t = e.eval A
  ok : LElem.Ok e → okElem t
  one : evAgg A [t] = groupVal A e.isPos (e.eval A) []
  agg : oneAggP (.agg [t]) = LPrim.oneAgg (.group e [])
end

/-- What the loop of a rule gives behind the tree `t` of the tokens `w`, the rule gives from the beginning of `w`. -/
def Lift {α : Type} (D : List VTok → Prop) (step : α → P α) (rule : P α) (w R : List VTok) (t : α) : Prop :=
  ∀ x r, (∀ m, R.length ≤ m → First D (loopN step m t) R x r) → First D rule (w ++ R) x r

theorem Lift.stop {α : Type} {D : List VTok → Prop} {step : α → P α} {rule : P α} {w R : List VTok} {t : α} (h : Lift D step rule w R t)
    (hs : step t R = []) : First D rule (w ++ R) t R :=
  h t R fun m _ => First.of_eq (loopN_stop hs m)

section
variable {V : Type} (A : Alg V)

/-- All texts with at most `k` tokens are parsed right. -/
structure Good (k : Nat) : Prop where
  name : ∀ (n : LName) (w : List VTok), n.Toks w → w.length ≤ k → ∀ M, 3 * k ≤ M → ∀ R, ∃ t, MN A t n ∧
    ∀ D, Lift D (namePart (env M)) ((env (M + 1)).name) w R t
  factor : ∀ (f : LFactor) (w : List VTok), f.Toks w → w.length ≤ k → ∀ M, 3 * k + 1 ≤ M → ∀ R, EndF R → ∀ p, ∃ t, MF A t f ∧
    Lift Dp (simpleStep (env M) p) ((env (M + 1)).simple p) w R t
  term : ∀ (f : LTerm) (w : List VTok), f.Toks w → w.length ≤ k → ∀ M, 3 * k + 1 ≤ M → ∀ R, EndF R → ∀ p, p ≤ 3 → ∃ t, MT A t f ∧
    Lift Dp (simpleStep (env M) p) ((env (M + 1)).simple p) w R t
  simple : ∀ (f : LSimple) (w : List VTok), f.Toks w → w.length ≤ k → ∀ M, 3 * k + 1 ≤ M → ∀ R, EndT R → ∀ p, p ≤ 1 → ∃ t, MS A t f ∧
    Lift Dp (simpleStep (env M) p) ((env (M + 1)).simple p) w R t
  one : ∀ (f : LSimple) (w : List VTok), f.Toks w → w.length ≤ k → ∀ M, 3 * k + 2 ≤ M → ∀ R, EndS R → ∀ p, ∃ t, MS A t f ∧
    Lift Dp (expressionStep (env M) p) ((env (M + 1)).expression p) w R (.simple t)
  shift : ∀ (f : LShift) (w : List VTok), f.Toks w → w.length ≤ k → ∀ M, 3 * k + 2 ≤ M → ∀ R, EndS R → ∀ p, p ≤ 3 → ∃ t, MH A t f ∧
    Lift Dp (expressionStep (env M) p) ((env (M + 1)).expression p) w R t
  rel : ∀ (f : LRel) (w : List VTok), f.Toks w → w.length ≤ k → ∀ M, 3 * k + 2 ≤ M → ∀ R, EndH R → ∀ p, p ≤ 2 → ∃ t, MR A t f ∧
    Lift Dp (expressionStep (env M) p) ((env (M + 1)).expression p) w R t
  expr : ∀ (f : LExpr) (w : List VTok), f.Toks w → w.length ≤ k → ∀ M, 3 * k + 2 ≤ M → ∀ R, EndR R → ∀ p, p ≤ 1 → ∃ t, ME A t f ∧
    Lift Dp (expressionStep (env M) p) ((env (M + 1)).expression p) w R t

variable {A}

/-- A name up to where no further part follows. -/
theorem Good.name' {k : Nat} (g : Good A k) {n : LName} {w : List VTok} (h : n.Toks w) (hk : w.length ≤ k) {M : Nat} (hM : 3 * k < M)
    {R : List VTok} (hR : Stuck R) : ∃ t, MN A t n ∧ First None' ((env M).name) (w ++ R) t R := by
  obtain ⟨M, rfl⟩ : ∃ m, M = m + 1 := ⟨M - 1, by omega⟩
  obtain ⟨t, ht, hl⟩ := g.name n w h hk M (by omega) R
  refine ⟨t, ht, (hl None').stop ?_⟩
  apply List.eq_nil_iff_forall_not_mem.2
  intro x hx
  obtain ⟨m, hm, -⟩ := namePart_parts (sound_env M) hx
  exact hR m hm

theorem Good.simple' {k : Nat} (g : Good A k) {f : LSimple} {w : List VTok} (h : f.Toks w) (hk : w.length ≤ k) {M : Nat} (hM : 3 * k + 1 < M)
    {R : List VTok} (hR : EndS R) : ∃ t, MS A t f ∧ First Dp ((env M).simple 0) (w ++ R) t R := by
  obtain ⟨M, rfl⟩ : ∃ m, M = m + 1 := ⟨M - 1, by omega⟩
  obtain ⟨t, ht, hl⟩ := g.simple f w h hk M (by omega) R hR.toEndT 0 (by omega)
  exact ⟨t, ht, hl.stop (simpleStep_nil (.inr hR.mul) (.inr hR.add))⟩

theorem Good.expr' {k : Nat} (g : Good A k) {f : LExpr} {w : List VTok} (h : f.Toks w) (hk : w.length ≤ k) {M : Nat} (hM : 3 * k + 2 < M)
    {R : List VTok} (hR : EndE R) : ∃ t, ME A t f ∧ First Dp ((env M).expression 0) (w ++ R) t R := by
  obtain ⟨M, rfl⟩ : ∃ m, M = m + 1 := ⟨M - 1, by omega⟩
  obtain ⟨t, ht, hl⟩ := g.expr f w h hk M (by omega) R hR.toEndR 0 (by omega)
  exact ⟨t, ht, hl.stop (expressionStep_nil (.inr hR.shift) (.inr hR.rel) (.inr hR.logic))⟩

/-! ## Actuals -/

/-- Behind an argument. -/
def ArgEnd (R : List VTok) : Prop := next R = some .COMMA ∨ next R = some .RPAREN

theorem ArgEnd.closes {R : List VTok} (h : ArgEnd R) : Closes R := by
  cases R with
  | nil => rcases h with h | h <;> cases h
  | cons y s =>
    rcases h with h | h <;> simp only [next_cons, Option.some.injEq] at h <;>
      exact ⟨y, s, rfl, by rw [h]; rfl, by rw [h]; rfl, by rw [h]; rfl, by rw [h]; decide⟩

theorem ArgEnd.stops {R : List VTok} (h : ArgEnd R) : Stops S1 R := by
  cases R with
  | nil => rcases h with h | h <;> cases h
  | cons y s =>
    rcases h with h | h <;> simp only [next_cons, Option.some.injEq] at h
    · exact ⟨y, s, rfl, .inr (by rw [h]; rfl)⟩
    · exact ⟨y, s, rfl, .inl (by rw [h]; rfl)⟩

theorem ArgEnd.of_paren {y : VTok} (h : y.ty = .RPAREN) (s : List VTok) : ArgEnd (y :: s) := .inr (by rw [next_cons, h])

theorem Mid.de {r : List VTok} (h : Mid r) : De .COMMA .RPAREN r := by
  obtain ⟨y, s, rfl, hy⟩ := h
  constructor <;>
  · intro hn
    simp only [next_cons, Option.some.injEq] at hn
    rw [hn] at hy
    rcases hy with hy | hy <;> cases hy

theorem Dp.mid {r : List VTok} (h : Dp r) : Mid r := by
  obtain ⟨y, s, e, hy⟩ := h
  exact ⟨y, s, e, .inl hy⟩

/-- `open` begins neither names, subtypes nor expressions. -/
theorem open_no {n : Nat} {y : VTok} (hy : y.ty = .kw .OPEN ∨ y.ty = .kw .OTHERS) (s : List VTok) :
    (env n).name (y :: s) = [] ∧ (env n).subInd (y :: s) = [] ∧ (env n).expression 0 (y :: s) = [] ∧ (env n).simple 0 (y :: s) = [] := by
  have h1 : nameStart y.ty = false := by rcases hy with h | h <;> rw [h] <;> rfl
  have h2 : expStart y.ty = false := by rcases hy with h | h <;> rw [h] <;> rfl
  refine ⟨?_, ?_, ?_, ?_⟩ <;> apply List.eq_nil_iff_forall_not_mem.2 <;> intro x hx
  · obtain ⟨y', s', e, hy'⟩ := ((ends_env n).name _ _ hx).start
    cases e; rw [h1] at hy'; cases hy'
  · obtain ⟨m, r, hm, hr, -⟩ := subInd_env hx
    rcases hm with rfl | hm | ⟨o, u, c, e, ho, -⟩
    · obtain ⟨y', s', e, hy'⟩ := hr.start
      cases e; rw [h1] at hy'; cases hy'
    · obtain ⟨y', s', e, hy'⟩ := hm.start
      cases e; rw [h1] at hy'; cases hy'
    · have e := (List.cons.inj e).1; subst e
      rcases hy with h | h <;> rw [h] at ho <;> cases ho
  · obtain ⟨y', s', e, hy'⟩ := expression_start hx
    cases e; rw [h2] at hy'; cases hy'
  · obtain ⟨y', s', e, hy'⟩ := simple_start hx
    cases e; rw [h2] at hy'; cases hy'

theorem inertial_no {e : LExpr} {w : List VTok} (h : e.Toks w) (R : List VTok) : tok (.kw .INERTIAL) (w ++ R) = [] := by
  obtain ⟨y, s, rfl, hy⟩ := (LExpr.lead e h).start
  refine tok_neg (fun h => ?_) _
  rw [h] at hy; cases hy

/-- An expression as actual designator. -/
theorem desig_expr {k : Nat} (g : Good A k) {e : LExpr} {w : List VTok} (h : e.Toks w) (hk : w.length ≤ k) {M : Nat} (hM : 3 * k + 2 < M)
    {R : List VTok} (hR : EndE R) : ∃ t, ME A t e ∧ First Dp (actualDesignator (env M)) (w ++ R) (.expr t) R := by
  obtain ⟨t, ht, f⟩ := g.expr' h hk hM hR
  refine ⟨t, ht, First.orL ?_⟩
  exact First.bindH (First.noneE (inertial_no h R)) f.map

theorem desig_open {M : Nat} {y : VTok} (hy : y.ty = .kw .OPEN) (R : List VTok) :
    First None' (actualDesignator (env M)) (y :: R) .opn R := by
  obtain ⟨-, h2, h3, -⟩ := open_no (n := M) (.inl hy) R
  refine First.orN ?_ (First.orN (bind_nil h2) (First.map (First.tok hy R)))
  show (opt (tok (.kw .INERTIAL)) >>= fun _ => _) (y :: R) = []
  rw [bind_apply, opt_none (tok_neg (by rw [hy]; decide) R)]
  simp only [List.flatMap_cons, List.flatMap_nil, List.append_nil]
  exact bind_nil h3

/-- The first alternative of `actual_part`. -/
def conv (E : Env) : P Actual := do
  let n ← E.name
  let _ ← tok .LPAREN
  let d ← actualDesignator E
  let _ ← tok .RPAREN
  return .conv n d

theorem mem_conv {M : Nat} {ts : List VTok} {x : Actual × List VTok} (hx : x ∈ conv (env M) ts) :
    ∃ o u c d, NameTo ts (o :: (u ++ c :: x.2)) ∧ o.ty = .LPAREN ∧ c.ty = .RPAREN ∧ Bal u ∧
      (d, c :: x.2) ∈ actualDesignator (env M) (u ++ c :: x.2) := by
  obtain ⟨n, r, h1, h2⟩ := mem_bind.1 hx
  obtain ⟨y, u, z, r, a, rfl, hy, hz, hu, ha, h2⟩ := paren_form (actualDesignator_s1 (sound_env M)).bal h2
  rw [mem_pure] at h2; subst h2
  exact ⟨y, u, z, a, (ends_env M).name _ _ h1, hy, hz, hu, ha⟩

/-- If an actual designator ends before the parenthesis, then there is no separator before. -/
theorem desig_sep {M : Nat} {v r s : List VTok} {d : Desig} {c : VTok} (hc : c.ty = .RPAREN)
    (hd : (d, c :: r) ∈ actualDesignator (env M) (v ++ s)) (hv : Flat S1 v) (hs : next s = some .COMMA ∨ next s = some .ARROW) : False := by
  obtain ⟨u, e, hu⟩ := actualDesignator_s1 (sound_env M) _ _ hd
  simp only at e
  cases s with
  | nil => rcases hs with h | h <;> cases h
  | cons y s =>
    have hy : y.ty = .COMMA ∨ y.ty = .ARROW := by simpa using hs
    have hs1 : Stops S1 (y :: s) := ⟨y, s, rfl, .inr (by rcases hy with h | h <;> rw [h] <;> rfl)⟩
    have := hv.unique seps_S1 hu hs1 ⟨c, r, rfl, .inl (by rw [hc]; rfl)⟩ e
    have := (List.cons.inj this.2).1
    subst this
    rcases hy with h | h <;> rw [h] at hc <;> cases hc

theorem dir_closes {d : Bool} {y : VTok} (hy : y.ty = dirTy d) (s : List VTok) : Closes (y :: s) := by
  refine ⟨y, s, rfl, ?_, ?_, ?_, ?_⟩ <;> rw [hy] <;> cases d <;> first | rfl | decide

theorem start_not {y : VTok} {t : VT} (h : expStart y.ty = true) (ht : expStart t = false) : y.ty ≠ t := by
  intro e; rw [e, ht] at h; cases h

/-- If an actual designator ends before the parenthesis, then there is no direction before. -/
theorem desig_dir {M : Nat} {a : LSimple} {v r s : List VTok} {d : Desig} {c y : VTok} {b : Bool} (hc : c.ty = .RPAREN) (ha : a.Toks v)
    (hy : y.ty = dirTy b) (hd : (d, c :: r) ∈ actualDesignator (env M) (v ++ y :: s)) : False := by
  have hyc : ¬ y.ty = .RPAREN := by rw [hy]; cases b <;> decide
  obtain ⟨y0, s0, e0, h0⟩ := (LSimple.lead a ha).start
  have hfl := LSimple.flat a v ha
  have hst : Stops S2 (y :: s) := ⟨y, s, rfl, .inr (by rw [hy]; cases b <;> rfl)⟩
  obtain ⟨p, hp, hx⟩ := mem_alts.1 hd
  simp only [List.mem_cons, List.not_mem_nil, or_false] at hp
  rcases hp with rfl | rfl | rfl
  · obtain ⟨i, r1, h1, h2⟩ := mem_bind.1 hx
    rw [e0, List.cons_append, opt_none (tok_neg (start_not h0 rfl) _)] at h1
    simp only [List.mem_singleton] at h1
    cases h1
    obtain ⟨e, r2, h3, h4⟩ := mem_bind.1 h2
    rw [mem_pure] at h4; cases h4
    rw [← List.cons_append, ← e0] at h3
    rcases ((sound_env M).expression 0 _ _ h3).2 with ⟨u, e1, hu⟩ | ⟨t, s', ⟨u, e1, hu⟩, ht⟩
    · have := (hfl.unique seps_S2 hu hst ⟨c, r, rfl, .inl (by rw [hc]; rfl)⟩ e1).2
      have := (List.cons.inj this).1
      subst this; exact hyc hc
    · have := (hfl.unique seps_S2 hu hst ⟨t, s', rfl, .inr (by rw [ht]; rfl)⟩ e1).2
      have := (List.cons.inj this).1
      subst this
      rw [hy] at ht; cases b <;> cases ht
  · obtain ⟨e, r2, h3, h4⟩ := mem_bind.1 hx
    rw [mem_pure] at h4; cases h4
    rcases (LSimple.lead a ha).subInd (dir_closes hy s) h3 with h | ⟨h, -⟩
    · exact h.de.2 (by rw [next_cons, hc])
    · have := (List.cons.inj h).1
      subst this; exact hyc hc
  · obtain ⟨e, r2, h3, h4⟩ := mem_bind.1 hx
    rw [e0, List.cons_append, tok_neg (start_not h0 rfl)] at h3
    cases h3

theorem part_ne {o a : VTok} {v u R : List VTok} {t : VT} (ho : o.ty = .LPAREN) (ha : a.ty = t) (hn : t ≠ .LPAREN)
    (h : o :: (u ++ v) = a :: R) : False := by
  have := (List.cons.inj h).1
  subst this
  rw [ho] at ha; exact hn ha.symm

/-- The only names which are also a conversion with one argument. -/
def LName.single : LName → Bool
  | .call _ (.pos _) [] => true
  | .call _ .opn [] => true
  | _ => false

/-- Other names are no conversions. -/
theorem conv_no {n : LName} {w R : List VTok} (hn : LName.single n = false) (h : n.Toks w) (hR : ArgEnd R) {M : Nat}
    {x : Actual × List VTok} (hx : x ∈ conv (env M) (w ++ R)) : De .COMMA .RPAREN x.2 := by
  obtain ⟨o, u, c, d, hto, ho, hc, hu, hd⟩ := mem_conv hx
  have hstep : PartStep (o :: (u ++ c :: x.2)) x.2 := .grp (.inl ho) (by rw [hc]; rfl) hu
  rcases (Lead.bare h).name hR.closes (hto.trans (.one hstep)) with hm | ⟨hm, -⟩
  · exact hm.de
  exfalso
  rw [hm] at hto hstep hd
  have hs := hR.closes.stuck
  cases n with
  | lit l =>
    obtain ⟨y, rfl, hy⟩ := h
    obtain ⟨m, hm, hp⟩ := hto
    have := hm.det (NameHead.lit (r := R) (nameLit_tok_start hy).1 (nameLit_tok_start hy).2)
    subst this
    have := congrArg List.length (hp.stuck hs)
    simp only [List.length_cons, List.length_append] at this
    omega
  | sel n s =>
    simp only [LName.Toks] at h
    obtain ⟨u', _, rfl, hu', _, _, rfl, ⟨a, rfl, ha⟩, z, rfl, hz⟩ := h
    have h2 := LName.to n u' (a :: z :: R) hu'
    have h3 : PartStep (a :: z :: R) R := .dot ha
    rw [List.append_assoc] at hto
    exact part_ne ho ha (by decide) (hto.lastPart hstep h2 h3 hs)
  | attr n s =>
    simp only [LName.Toks] at h
    obtain ⟨u', _, rfl, hu', _, _, rfl, ⟨a, rfl, ha⟩, z, rfl, hz⟩ := h
    have h2 := LName.to n u' (a :: z :: R) hu'
    have h3 : PartStep (a :: z :: R) R := .attr ha (attrTok_desig hz)
    rw [List.append_assoc] at hto
    exact part_ne ho ha (by decide) (hto.lastPart hstep h2 h3 hs)
  | slice n a b e =>
    simp only [LName.Toks] at h
    obtain ⟨u', _, rfl, hu', _, _, rfl, ⟨o', rfl, ho'⟩, wa, _, rfl, ha, _, _, rfl, ⟨z, rfl, hz⟩, wb, _, rfl, hb, c', rfl, hc'⟩ := h
    have hbal : Bal (wa ++ z :: wb) := by
      refine (LSimple.flat a wa ha).bal.append (.atom ?_ ?_ (LSimple.flat e wb hb).bal) <;> rw [hz] <;> cases b <;> rfl
    have h2 := LName.to n u' (o' :: ((wa ++ z :: wb) ++ c' :: R)) hu'
    have h3 : PartStep (o' :: ((wa ++ z :: wb) ++ c' :: R)) R := .grp (.inl ho') (by rw [hc']; rfl) hbal
    have e1 : u' ++ ([o'] ++ (wa ++ ([z] ++ (wb ++ [c'])))) ++ R = u' ++ (o' :: ((wa ++ z :: wb) ++ c' :: R)) := by simp
    rw [e1] at hto
    have e2 := (List.cons.inj (hto.lastPart hstep h2 h3 hs)).2
    rw [e2, List.append_assoc, List.cons_append] at hd
    exact desig_dir hc ha hz hd
  | call n a l =>
    simp only [LName.Toks] at h
    obtain ⟨u', _, rfl, hu', _, _, rfl, ⟨o', rfl, ho'⟩, wa, _, rfl, ha, wl, _, rfl, hl, c', rfl, hc'⟩ := h
    have h2 := LName.to n u' (o' :: ((wa ++ wl) ++ c' :: R)) hu'
    have h3 : PartStep (o' :: ((wa ++ wl) ++ c' :: R)) R :=
      .grp (.inl ho') (by rw [hc']; rfl) ((LArg.bal a wa ha).append (args_bal l wl hl))
    have e1 : u' ++ ([o'] ++ (wa ++ (wl ++ [c']))) ++ R = u' ++ (o' :: ((wa ++ wl) ++ c' :: R)) := by simp
    rw [e1] at hto
    have e2 := (List.cons.inj (hto.lastPart hstep h2 h3 hs)).2
    rw [e2, List.append_assoc] at hd
    have named : ∀ f e, a ≠ .named f e := by
      rintro f e rfl
      simp only [LArg.Toks] at ha
      obtain ⟨wf, _, rfl, hf, _, we, rfl, ⟨z, rfl, hz⟩, -⟩ := ha
      rw [List.append_assoc] at hd
      exact desig_sep hc hd ((LName.flat f wf hf).mono S1_S2) (.inr (by simp [hz]))
    cases l with
    | cons b l =>
      simp only [argsToks] at hl
      obtain ⟨_, _, rfl, ⟨z, rfl, hz⟩, -⟩ := hl
      have hfa : Flat S1 wa := by
        cases a with
        | pos e => exact (LExpr.flat e wa (by simpa only [LArg.Toks] using ha)).mono S1_S2
        | opn => simp only [LArg.Toks] at ha; exact one_flat rfl rfl (by decide) rfl ha
        | named f e => exact absurd rfl (named f e)
      exact desig_sep hc hd hfa (.inl (by simp [hz]))
    | nil =>
      cases a with
      | pos e => cases hn
      | opn => cases hn
      | named f e => exact named f e rfl

/-- Expressions which are not only a name are no conversions. -/
theorem conv_none {e : LExpr} {w R : List VTok} (hn : LExpr.bare e = none) (h : e.Toks w) (hR : ArgEnd R) {M : Nat}
    {x : Actual × List VTok} (hx : x ∈ conv (env M) (w ++ R)) : De .COMMA .RPAREN x.2 := by
  obtain ⟨o, u, c, d, hto, ho, hc, hu, hd⟩ := mem_conv hx
  have hstep : PartStep (o :: (u ++ c :: x.2)) x.2 := .grp (.inl ho) (by rw [hc]; rfl) hu
  have hl := LExpr.lead e h
  rw [hn] at hl
  rcases hl.name hR.closes (hto.trans (.one hstep)) with hm | ⟨-, hm⟩
  · exact hm.de
  · cases hm

theorem bare_toks {e : LExpr} {n : LName} (h : LExpr.bare e = some n) :
    e = .one (.one (.one (.one (.one (.prim (.name n)))))) := by
  cases e with
  | cond | logic => cases h
  | one e => cases e with
    | rel => cases h
    | one e => cases e with
      | shift => cases h
      | one e => cases e with
        | signed | add => cases h
        | one e => cases e with
          | mul => cases h
          | one e => cases e with
            | pow | abs | not | red => cases h
            | prim e => cases e with
              | name m => cases h; rfl
              | _ => cases h

theorem actual_default {k : Nat} (g : Good A k) {e : LExpr} {w : List VTok} (h : e.Toks w) (hk : w.length ≤ k) {M : Nat}
    (hM : 3 * k + 2 < M) {R : List VTok} (hR : ArgEnd R) (hc : ∀ x ∈ conv (env M) (w ++ R), De .COMMA .RPAREN x.2) :
    ∃ t, MA A t e ∧ First (De .COMMA .RPAREN) (actualPart (env M)) (w ++ R) t R := by
  obtain ⟨t, ht, f⟩ := desig_expr g h hk hM hR.closes.endE
  refine ⟨.desig (.expr t), ⟨by simpa [evActual, evDesig] using ht.ev, fun h => by simpa [okActual, okDesig] using ht.ok h⟩, ?_⟩
  exact First.orR hc ((f.mono fun s hs => hs.mid.de).map)

/-- The name in front of the parentheses of a conversion. -/
theorem conv_name {k : Nat} (g : Good A k) {n : LName} {w : List VTok} (h : n.Toks w) (hk : w.length ≤ k) {M : Nat} (hM : 3 * k < M)
    {o c : VTok} {u R : List VTok} (ho : o.ty = .LPAREN) (hc : c.ty = .RPAREN) (hu : Bal u) (hR : ArgEnd R) :
    ∃ t, MN A t n ∧ First (fun s => next s ≠ some .LPAREN) ((env M).name) (w ++ o :: (u ++ c :: R)) t (o :: (u ++ c :: R)) := by
  obtain ⟨M, rfl⟩ : ∃ m, M = m + 1 := ⟨M - 1, by omega⟩
  obtain ⟨t, ht, hl⟩ := g.name n w h hk M (by omega) (o :: (u ++ c :: R))
  refine ⟨t, ht, hl _ _ _ fun m hm => ?_⟩
  cases m with
  | zero => simp at hm
  | succ m =>
    refine (First.ret _ _).orR fun x hx => ?_
    obtain ⟨t', r', h1, h2⟩ := mem_bind.1 hx
    obtain ⟨q, hq, hq'⟩ := namePart_parts (sound_env M) h1
    have hstep : PartStep (o :: (u ++ c :: R)) R := .grp (.inl ho) (by rw [hc]; rfl) hu
    cases hq.det hstep
    have := (hq'.trans (loopN_namePart_parts (sound_env M) _ _ h2)).stuck hR.closes.stuck
    rw [← this]
    rcases hR with h | h <;> rw [h] <;> simp

theorem paren_kill {r : List VTok} (h : Dp r) : tok .RPAREN r = [] := by
  obtain ⟨y, s, rfl, hy⟩ := h
  exact tok_neg (by intro e; rw [e] at hy; cases hy) _

section
variable (hA : ∀ f l, A.call f l = A.index f l)
include hA

theorem actual_conv {k : Nat} (g : Good A k) {n : LName} {a : LArg} {w : List VTok} (h : (LName.call n a []).Toks w) (hk : w.length ≤ k) {M : Nat}
    (hM : 3 * k + 2 < M) {R : List VTok} (hR : ArgEnd R) (hs : LName.single (.call n a []) = true) :
    ∃ t, (evActual A t = (LName.call n a []).eval A ∧ (LName.Ok (.call n a []) → okActual t)) ∧
      First (De .COMMA .RPAREN) (actualPart (env M)) (w ++ R) t R := by
  simp only [LName.Toks] at h
  obtain ⟨u', _, rfl, hu', _, _, rfl, ⟨o', rfl, ho'⟩, wa, _, rfl, ha, wl, _, rfl, hl, c', rfl, hc'⟩ := h
  simp only [argsToks] at hl
  subst hl
  simp only [List.length_append, List.length_cons, List.length_nil] at hk
  have e1 : u' ++ ([o'] ++ (wa ++ ([] ++ [c']))) ++ R = u' ++ (o' :: (wa ++ c' :: R)) := by simp
  rw [e1]
  obtain ⟨t, ht, f⟩ := conv_name g hu' (by omega) (M := M) (by omega) ho' hc' (LArg.bal a wa ha) hR
  have key : ∀ d, First Dp (actualDesignator (env M)) (wa ++ c' :: R) d (c' :: R) →
      First (De .COMMA .RPAREN) (actualPart (env M)) (u' ++ (o' :: (wa ++ c' :: R))) (.conv t d) R := by
    intro d fd
    refine First.orL (f.head (First.bindH (First.tok ho' _) (fd.head (First.map (First.tok hc' R)) fun _ s hs => ?_)) fun c s hs => ?_)
    · exact bind_nil (paren_kill hs)
    · exact bind_nil (tok_next hs)
  cases a with
  | pos e =>
    simp only [LArg.Toks] at ha
    obtain ⟨te, hte, fe⟩ := desig_expr g ha (by omega) hM (ArgEnd.of_paren hc' R).closes.endE
    refine ⟨_, ⟨?_, fun h => ?_⟩, key _ fe⟩
    · simp only [evActual, evDesig, LName.eval, LArg.eval, argsEval, hA, ht.ev, hte.ev]
    · simp only [LName.Ok, LArg.Ok, argsOk] at h
      exact ⟨ht.ok h.1, hte.ok h.2.1⟩
  | opn =>
    simp only [LArg.Toks] at ha
    obtain ⟨y, rfl, hy⟩ := ha
    refine ⟨_, ⟨?_, fun h => ?_⟩, key _ (desig_open hy _).weak⟩
    · simp only [evActual, evDesig, LName.eval, LArg.eval, argsEval, hA, ht.ev]
    · simp only [LName.Ok, LArg.Ok, argsOk] at h
      exact ⟨ht.ok h.1, trivial⟩
  | named f e => cases hs

theorem actual_good {k : Nat} (g : Good A k) {e : LExpr} {w : List VTok} (h : e.Toks w) (hk : w.length ≤ k) {M : Nat}
    (hM : 3 * k + 2 < M) {R : List VTok} (hR : ArgEnd R) :
    ∃ t, MA A t e ∧ First (De .COMMA .RPAREN) (actualPart (env M)) (w ++ R) t R := by
  cases hb : LExpr.bare e with
  | none => exact actual_default g h hk hM hR fun x hx => conv_none hb h hR hx
  | some n =>
    have e0 := bare_toks hb
    subst e0
    have hn : n.Toks w := by simpa only [LExpr.Toks, LRel.Toks, LShift.Toks, LSimple.Toks, LTerm.Toks, LFactor.Toks, LPrim.Toks] using h
    cases hs : LName.single n with
    | false => exact actual_default g h hk hM hR fun x hx => conv_no hs hn hR hx
    | true =>
      cases n with
      | call n a l =>
        cases l with
        | nil =>
          obtain ⟨t, ⟨h1, h2⟩, f⟩ := actual_conv hA g hn hk hM hR hs
          refine ⟨t, ⟨?_, fun h => h2 ?_⟩, f⟩
          · simpa only [LExpr.eval, LRel.eval, LShift.eval, LSimple.eval, LTerm.eval, LFactor.eval, LPrim.eval] using h1
          · simpa only [LExpr.Ok, LRel.Ok, LShift.Ok, LSimple.Ok, LTerm.Ok, LFactor.Ok, LPrim.Ok] using h
        | cons b l => cases a <;> cases hs
      | _ => cases hs

/-! ## Arguments -/

omit hA in
theorem formal_no {e : LExpr} {w R : List VTok} (h : e.Toks w) (hR : ArgEnd R) {M : Nat} :
    (do let f ← formalPart (env M); let _ ← tok .ARROW; return f) (w ++ R) = [] := by
  apply List.eq_nil_iff_forall_not_mem.2
  intro x hx
  obtain ⟨f, r, h1, h2⟩ := mem_bind.1 hx
  obtain ⟨f', r', h3, h4⟩ := mem_bind.1 h2
  obtain ⟨y, e1, hy, -⟩ := mem_tok.1 h3
  obtain ⟨u, e2, hu⟩ := (formalPart_flat (sound_env M)).s1 _ _ h1
  simp only at e1 e2
  subst e1
  have := (((LExpr.flat e w h).mono S1_S2).unique seps_S1 hu hR.stops ⟨y, r', rfl, .inr (by rw [hy]; rfl)⟩ e2).2
  rw [this] at hR
  rcases hR with h | h <;> simp [hy] at h

theorem arg_good {k : Nat} (g : Good A k) (a : LArg) {w : List VTok} (h : a.Toks w) (hk : w.length ≤ k) {M : Nat}
    (hM : 3 * k + 2 < M) {R : List VTok} (hR : ArgEnd R) :
    ∃ t, MArg A t a ∧ First (De .COMMA .RPAREN) (associationElement (env M)) (w ++ R) t R := by
  cases a with
  | pos e =>
    simp only [LArg.Toks] at h
    obtain ⟨t, ht, f⟩ := actual_good hA g h hk hM hR
    refine ⟨.pos t, ⟨by simpa [evAssoc, LArg.eval] using ht.ev, fun h => by simpa [okAssoc] using ht.ok h⟩, ?_⟩
    exact First.bindH (First.noneE (formal_no h hR)) f.map
  | opn =>
    simp only [LArg.Toks] at h
    obtain ⟨y, rfl, hy⟩ := h
    refine ⟨.pos (.desig .opn), ⟨by simp [evAssoc, evActual, evDesig, LArg.eval], fun _ => trivial⟩, ?_⟩
    have hn := (open_no (n := M) (.inl hy) R).1
    refine First.bindH (First.noneE (bind_nil (bind_nil hn))) (First.map (f := mkAssoc none) ?_)
    exact First.orN (bind_nil hn) (First.map (desig_open hy R).weak)
  | named f e =>
    simp only [LArg.Toks] at h
    obtain ⟨wf, _, rfl, hf, _, we, rfl, ⟨z, rfl, hz⟩, he⟩ := h
    simp only [List.length_append, List.length_cons, List.length_nil] at hk
    obtain ⟨t, ht, ft⟩ := actual_good hA g he (by omega) hM hR
    have hcl : Closes (z :: (we ++ R)) := ⟨z, _, rfl, by rw [hz]; rfl, by rw [hz]; rfl, by rw [hz]; rfl, by rw [hz]; decide⟩
    obtain ⟨tf, htf, ff⟩ := g.name' hf (by omega) (M := M) (by omega) hcl.stuck
    refine ⟨.named tf t, ⟨?_, fun h => ?_⟩, ?_⟩
    · simp only [evAssoc, LArg.eval, htf.ev, ht.ev]
    · simp only [LArg.Ok] at h
      exact ⟨htf.ok h.1, ht.ok h.2⟩
    · have e1 : wf ++ ([z] ++ we) ++ R = wf ++ z :: (we ++ R) := by simp
      rw [e1]
      have f1 : First None' (formalPart (env M)) (wf ++ z :: (we ++ R)) (tf, none) (z :: (we ++ R)) :=
        First.bindH ff (First.map (f := fun g => (tf, g)) (First.noneE (bind_nil (tok_neg (by rw [hz]; decide) _))))
      have f2 : First None' (do let f ← formalPart (env M); let _ ← tok .ARROW; return f) (wf ++ z :: (we ++ R)) (tf, none) (we ++ R) :=
        First.bindH f1 (First.map (f := fun _ => (tf, none)) (First.tok hz _))
      exact First.bindH f2.some (ft.map (f := mkAssoc (some (tf, none))))

theorem args_first {k : Nat} (g : Good A k) (a : LArg) (l : List LArg) {wa wl : List VTok} (ha : a.Toks wa) (hl : argsToks l wl)
    (hk : (wa ++ wl).length ≤ k) {M : Nat} (hM : 3 * k + 2 < M) {R : List VTok} (hR : next R = some .RPAREN) :
    ∃ t ts, MArg A t a ∧ List.Forall₂ (MArg A) ts l ∧
      First (De .COMMA .RPAREN) (sepBy .COMMA (associationElement (env M))) (wa ++ (wl ++ R)) (t :: ts) R := by
  refine sepBy_first (T := LArg.Toks) (LT := argsToks) (k := k) (by decide) ?_ ?_ ?_ a l wa wl ha hl hk R hR
  · intro w h; simpa only [argsToks] using h
  · intro b l w h
    simp only [argsToks] at h
    obtain ⟨_, _, rfl, ⟨x, rfl, hx⟩, u, v, rfl, hu, hv⟩ := h
    exact ⟨x, u, v, rfl, hx, hu, hv⟩
  · intro b u R h hk hR
    exact arg_good hA g b h hk hM hR

end

end

end Verif.Vhdl
