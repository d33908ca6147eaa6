import Verif.SvTextPrim
/-!
# The parse of a SystemVerilog expression: all texts
-/
namespace Verif.Sv
open P Verif.Spec.SvLrm Verif.Spec.Sv

section
variable {V : Type} {A : Alg V} {B : Rules}

/-! ## System functions -/

/-- The end of the call of a system function. -/
def clkEnd (E : Env) (g : Bool → Prim) : P Prim := do
  let c ← opt (do let _ ← tok .COMMA; clockingEvent E)
  let _ ← tok .RPAREN
  return g c.isSome
/-- What follows a data type as the first argument. -/
def tfTEnd (E : Env) (f : Str) (t : DType) : P Prim := opt (do let _ ← tok .COMMA; listOfArguments E) >>= fun l => clkEnd E (.tfCallT f t (l.getD []))
/-- The arguments of a system function begin with a data type. -/
def tfT (E : Env) (f : Str) : P Prim := tok .LPAREN >>= fun _ => E.dataType >>= tfTEnd E f
/-- The arguments of a system function are expressions. -/
def tfA (E : Env) (f : Str) : P Prim := tok .LPAREN >>= fun _ => listOfArguments E >>= fun l => clkEnd E (.tfCall f l)

theorem tfCall_eq (E : Env) : tfCall E = (anySystemTfIdentifier >>= fun f => opt (P.or (tfT E f) (tfA E f)) >>= fun r => pure (r.getD (.tfCall0 f))) := rfl

section
variable {E : Env} {g : Bool → Prim} {R : List STok}

theorem clkEnd_first {c : STok} (hc : c.ty = .RPAREN) : First None' (clkEnd E g) (c :: R) (g false) R :=
  First.bindH (First.noneE (bind_nil (tok_neg (by rw [hc]; decide) R))) (First.bindH (First.tok hc R) (First.ret _ _))

theorem clkEnd_nil {s : List STok} (h1 : ∀ y r, s = y :: r → y.ty ≠ .RPAREN)
    (h2 : ∀ y r, s = y :: r → y.ty = .COMMA → ∀ z r', r = z :: r' → z.ty ≠ .AT) : clkEnd E g s = [] := by
  unfold clkEnd
  rw [bind_apply, opt_none]
  · simp only [List.flatMap_cons, List.flatMap_nil, List.append_nil]
    exact bind_nil (tok_ne h1)
  · cases s with
    | nil => rfl
    | cons y r =>
      by_cases hy : y.ty = .COMMA
      · rw [bind_apply, tok_pos hy]
        simp only [List.flatMap_cons, List.flatMap_nil, List.append_nil]
        exact bind_nil (tok_ne (h2 y r rfl hy))
      · exact bind_nil (tok_neg hy r)

theorem clkEnd_dot {s : List STok} (h : DotD s) : clkEnd E g s = [] := by
  obtain ⟨y, s, rfl, hy⟩ := h
  refine clkEnd_nil ?_ ?_
  · intro _ _ e; cases e; rw [hy]; decide
  · intro _ _ e h; cases e; rw [hy] at h; cases h

theorem tfTEnd_nil {f : Str} {t : DType} {s : List STok} (h1 : ∀ y r, s = y :: r → y.ty ≠ .RPAREN) (h2 : ∀ y r, s = y :: r → y.ty ≠ .COMMA) :
    tfTEnd E f t s = [] := by
  unfold tfTEnd
  rw [bind_apply, opt_none (bind_nil (tok_ne h2))]
  simp only [List.flatMap_cons, List.flatMap_nil, List.append_nil]
  exact clkEnd_nil h1 fun y r e h => absurd h (h2 y r e)

theorem tfCall_first {x : STok} {s : List STok} {t : Prim} (hx : x.ty = .SYSTEM_TF_IDENTIFIER) (h : First None' (P.or (tfT E x.text) (tfA E x.text)) s t R) :
    First None' (tfCall E) (x :: s) t R := by
  rw [tfCall_eq]
  exact First.bindH (First.orL (First.tok hx s)) (First.map (f := fun r : Option Prim => r.getD (.tfCall0 x.text)) (First.some h))

theorem tfCall_none {x : STok} {s : List STok} (hx : x.ty = .SYSTEM_TF_IDENTIFIER) (h1 : tfT E x.text s = []) (h2 : tfA E x.text s = []) :
    First None' (tfCall E) (x :: s) (.tfCall0 x.text) s := by
  rw [tfCall_eq]
  exact First.bindH (First.orL (First.tok hx s)) (First.map (f := fun r : Option Prim => r.getD (.tfCall0 x.text)) (First.noneE (by rw [or_apply, h1, h2]; rfl)))

end

theorem sys_text {x : STok} {f : Str} (h : x.ty = .SYSTEM_TF_IDENTIFIER ∧ x.text = f) : x.text = f := h.2

section
variable {k : Nat} (g : Good A B k)
include g

/-- The arguments begin with an expression which looks like a data type. -/
theorem Good.sysType {f : Str} {p : SPrim} {l : List SArg} {w : List STok} {o c : STok} (ho : o.ty = .LPAREN) (hc : c.ty = .RPAREN)
    (h : argsToks (.pos (.prim p) :: l) w) (hl : ordered l = true) (hl' : l ≠ [.omit]) (hp : tyP p = true) (hk : w.length ≤ k) {M : Nat} (hM : w.length < M)
    (R : List STok) : ∃ t, (evPrim A t = A.call (A.kw f) (argsEval A (.pos (.prim p) :: l))) ∧
      (isKw f = true → argsOk (.pos (.prim p) :: l) → okPrim t) ∧ (∀ f, t ≠ .tfCall0 f) ∧ First None' (tfT (env B M) f) (o :: (w ++ c :: R)) t R := by
  rw [argsToks] at h
  obtain ⟨w, v, rfl, h1, h2⟩ := h
  rw [SArg.Toks, SExp.Toks] at h1
  simp only [List.length_append] at hk hM
  obtain ⟨M, rfl⟩ : ∃ m, M = m + 1 := ⟨M - 1, by omega⟩
  have hE : DEnd (v ++ c :: R) := by
    have hs : ∀ y s, v ++ c :: R = y :: s → y.ty = .COMMA ∨ y.ty = .RPAREN := by
      intro y s e
      cases l with
      | nil => rw [moreToks, Spec.SvLrm.Empty] at h2; subst h2; cases e; exact .inr hc
      | cons a l => obtain ⟨x, v, rfl, hx, _⟩ := more_cons h2; cases e; exact .inl hx
    intro y s e
    have := hs y s e
    refine ⟨?_, ?_, ?_⟩ <;> · intro h; rw [h] at this; rcases this with this | this <;> cases this
  obtain ⟨t, hd, ft⟩ := g.dtype p w hp h1 (by omega) M (by omega) (v ++ c :: R) hE
  have ft : First None' (env B (M + 1)).dataType (w ++ (v ++ c :: R)) t (v ++ c :: R) := ft
  have hok : argsOk (.pos (.prim p) :: l) → p.Ok ∧ argsOk l := by
    intro h; rw [argsOk, SArg.Ok, SExp.Ok] at h; exact ⟨h.1, h.2.1⟩
  cases l with
  | nil =>
    rw [moreToks, Spec.SvLrm.Empty] at h2; subst h2
    refine ⟨.tfCallT f t [] false, ?_, ?_, (by intro f h; cases h), ?_⟩
    · rw [evPrim, hd.ev, argsEval, SArg.eval, SExp.eval, argsEval]
    · intro h1 h2; exact ⟨h1, hd.ok (hok h2).1, .inl rfl, rfl⟩
    · rw [List.append_assoc]
      refine First.bindH (First.tok ho _) (First.bindH ft ?_)
      exact First.bindH (First.noneE (bind_nil (tok_neg (by rw [hc]; decide) _))) (clkEnd_first hc)
  | cons a l =>
    obtain ⟨x, v, rfl, hx, h3⟩ := more_cons h2
    simp only [List.length_cons] at hk hM
    obtain ⟨u, hu, fu⟩ := g.args h3 (by simp) ⟨hl, hl'⟩ (by omega) (M := M + 1) (by omega) (R := c :: R) (.of hc R rfl)
    refine ⟨.tfCallT f t u false, ?_, ?_, (by intro f h; cases h), ?_⟩
    · have := hu.ev
      have hne := hu.ne
      cases u with
      | nil => exact absurd rfl hne
      | cons z u => rw [evPrim, hd.ev, argsEval, SArg.eval, SExp.eval, this]; simp
    · intro h1 h2; exact ⟨h1, hd.ok (hok h2).1, .inr (hu.ok (hok h2).2), rfl⟩
    · rw [List.append_assoc]
      refine First.bindH (First.tok ho _) (First.bindH ft ?_)
      refine First.head (D' := DotD) (First.some (First.bindH (First.tok hx _) fu)) (clkEnd_first hc) ?_
      intro l s hs; exact clkEnd_dot hs

omit g in
/-- The arguments do not begin with a data type. -/
theorem sys_noType {f : Str} {a : SArg} {l : List SArg} {w : List STok} {o c : STok} (hc : c.ty = .RPAREN)
    (h : argsToks (a :: l) w) (hw : wellFormed (a :: l)) (ha : ∀ p, a = .pos (.prim p) → tyP p = true → l = [.omit]) {M : Nat} {R : List STok} :
    tfT (env B M) f (o :: (w ++ c :: R)) = [] := by
  rw [argsToks] at h
  obtain ⟨w, v, rfl, h1, h2⟩ := h
  have hR : SepC (c :: R) := .of hc R rfl
  apply List.eq_nil_iff_forall_not_mem.2
  intro z hz
  obtain ⟨_, r, h3, h4⟩ := mem_bind.1 hz
  obtain ⟨y, e, hy, -⟩ := mem_tok.1 h3
  obtain ⟨e0, e1⟩ := List.cons.inj e
  simp only at e1
  subst e1
  obtain ⟨t, r, h5, h6⟩ := mem_bind.1 h4
  rw [List.append_assoc] at h5
  cases a with
  | «omit» =>
    rw [SArg.Toks, Spec.SvLrm.Empty] at h1; subst h1
    rw [List.nil_append, dataType_eNo B M _ (more_eNo h2 hR)] at h5; cases h5
  | named i e =>
    obtain ⟨y, s, rfl, hy⟩ := named_dot rfl h1
    rw [List.cons_append, (dataType_eNo B M).cons (by rw [hy]; rfl)] at h5; cases h5
  | namedEmpty i =>
    obtain ⟨y, s, rfl, hy⟩ := named_dot rfl h1
    rw [List.cons_append, (dataType_eNo B M).cons (by rw [hy]; rfl)] at h5; cases h5
  | pos e =>
    rw [SArg.Toks] at h1
    have hcut : ∀ y s, r = y :: s → (isClose y.ty = true ∨ y.ty = .COMMA) → tyE e = true ∧ r = v ++ c :: R := by
      rintro y s rfl hy
      obtain ⟨y', s', e', hy'⟩ : ∃ y' s', v ++ c :: R = y' :: s' ∧ (isClose y'.ty = true ∨ y'.ty = .COMMA) := by
        cases l with
        | nil => rw [moreToks, Spec.SvLrm.Empty] at h2; subst h2; exact ⟨c, R, rfl, .inl (by rw [hc]; rfl)⟩
        | cons b l => obtain ⟨x, v, rfl, hx, -⟩ := more_cons h2; exact ⟨x, _, rfl, .inr hx⟩
      rw [e'] at h5 ⊢
      exact type_cut h1 (by rcases hy' with h | h <;> simp [h]) hy h5
    by_cases hr : ∃ y s, r = y :: s ∧ (y.ty = .RPAREN ∨ y.ty = .COMMA)
    · obtain ⟨y, s, er, hy⟩ := hr
      obtain ⟨h7, h8⟩ := hcut y s er (by rcases hy with h | h <;> simp [h, isClose])
      obtain ⟨p, rfl⟩ : ∃ p, e = .prim p := by cases e <;> first | exact ⟨_, rfl⟩ | cases h7
      have hl := ha p rfl h7
      subst hl
      obtain ⟨x, v, rfl, hx, h9⟩ := more_cons h2
      rw [argsToks] at h9
      obtain ⟨_, _, rfl, h10, h11⟩ := h9
      rw [SArg.Toks, Spec.SvLrm.Empty] at h10; subst h10
      rw [moreToks, Spec.SvLrm.Empty] at h11; subst h11
      subst h8
      have : tfTEnd (env B M) f t (x :: c :: R) = [] := by
        unfold tfTEnd
        rw [bind_apply, opt_none]
        · simp only [List.flatMap_cons, List.flatMap_nil, List.append_nil]
          refine clkEnd_nil ?_ ?_
          · intro _ _ e; cases e; rw [hx]; decide
          · intro _ _ e _ _ _ e'; cases e; cases e'; rw [hc]; decide
        · rw [bind_apply, tok_pos hx]
          simp only [List.flatMap_cons, List.flatMap_nil, List.append_nil]
          exact listOfArguments_no.cons (by rw [hc]; rfl)
      have h6 : z ∈ tfTEnd (env B M) f t (x :: c :: R) := h6
      rw [this] at h6; cases h6
    · rw [tfTEnd_nil] at h6
      · cases h6
      · intro y s e h; exact hr ⟨y, s, e, .inl h⟩
      · intro y s e h; exact hr ⟨y, s, e, .inr h⟩

/-- A system function with arguments. -/
theorem Good.sysCall {f : Str} {a : SArg} {l : List SArg} {w : List STok} {o c : STok} (ho : o.ty = .LPAREN) (hc : c.ty = .RPAREN)
    (h : argsToks (a :: l) w) (hw : wellFormed (a :: l)) (hk : w.length ≤ k) {M : Nat} (hM : w.length < M)
    (R : List STok) : ∃ t, (evPrim A t = A.call (A.kw f) (argsEval A (a :: l))) ∧
      (isKw f = true → argsOk (a :: l) → okPrim t) ∧ (∀ f, t ≠ .tfCall0 f) ∧ First None' (P.or (tfT (env B M) f) (tfA (env B M) f)) (o :: (w ++ c :: R)) t R := by
  by_cases ha : ∃ p, a = .pos (.prim p) ∧ tyP p = true ∧ l ≠ [.omit]
  · obtain ⟨p, rfl, h1, h2⟩ := ha
    obtain ⟨t, h3, h4, h5, h6⟩ := g.sysType (f := f) ho hc h (ordered_pos rfl hw.1) h2 h1 hk hM R
    exact ⟨t, h3, h4, h5, First.orL h6⟩
  · obtain ⟨u, hu, fu⟩ := g.args h (by simp) hw hk hM (R := c :: R) (.of hc R rfl)
    refine ⟨.tfCall f u false, ?_, ?_, (by intro f h; cases h), ?_⟩
    · rw [evPrim, hu.ev]
    · intro h1 h2; exact ⟨h1, hu.ok h2, rfl⟩
    · refine First.orN (sys_noType hc h hw fun p e hp => ?_) (First.bindH (First.tok ho _) (First.head fu (clkEnd_first hc) ?_))
      · by_contra hne; exact ha ⟨p, e, hp, hne⟩
      · intro l s hs; exact clkEnd_dot hs

/-! ## Primaries -/

theorem Good.primS (p : SPrim) (w : List STok) (h : p.Toks w) (hk : w.length ≤ k + 1) (M : Nat) (hM : w.length ≤ M) (R : List STok) (hR : PHead p R) :
    ∃ t, MPr A t p ∧ Lift (primaryStep B (env B M)) (primary B (env B M)) w R t := by
  cases p with
  | lit l =>
    rw [SPrim.Toks] at h
    refine ⟨.lit l, ⟨?_, ?_, ?_⟩, Lift.head (head_lit h fun y s e => (hR y s e).1)⟩
    · rw [evPrim, SPrim.eval]
    · intro h; rw [SPrim.Ok] at h; exact h
    · intro f h; cases h
  | name i l =>
    rw [SPrim.Toks] at h
    refine ⟨.path (namePath i l), ⟨?_, ?_, ?_⟩, Lift.head (head_name h fun y s e => ⟨(hR y s e).2.1, (hR y s e).2.2.1⟩)⟩
    · rw [evPrim, SPrim.eval, namePath_ev]
    · intro h; rw [SPrim.Ok] at h; exact namePath_ok h.1 h.2
    · intro f h; cases h
  | paren e =>
    rw [SPrim.Toks] at h
    obtain ⟨_, _, rfl, ⟨o, rfl, ho⟩, w, _, rfl, h1, ⟨c, rfl, hc⟩⟩ := h
    simp only [List.length_append, List.length_cons, List.length_nil] at hk hM
    obtain ⟨t, ht, ft⟩ := g.expr' h1 (by omega) (M := M) (by omega) (R := c :: R) (.of hc R rfl rfl)
    refine ⟨.par (.one t), ⟨?_, ?_, ?_⟩, ?_⟩
    · rw [evPrim, evMTM, SPrim.eval, ht.ev]
    · intro h; rw [SPrim.Ok] at h; exact ht.ok h
    · intro f h; cases h
    · refine Lift.head ?_
      simp only [List.append_assoc, List.cons_append, List.nil_append]
      exact head_paren ho hc ft
  | cast p e =>
    rw [SPrim.Toks] at h
    obtain ⟨u, _, rfl, h1, _, _, rfl, ⟨x, rfl, hx⟩, _, _, rfl, ⟨o, rfl, ho⟩, w, _, rfl, h2, ⟨c, rfl, hc⟩⟩ := h
    simp only [List.length_append, List.length_cons, List.length_nil] at hk hM
    obtain ⟨t, ht, ft⟩ := g.expr' h2 (by omega) (M := M) (by omega) (R := c :: R) (.of hc R rfl rfl)
    obtain ⟨q, hq, lq⟩ := g.prim p u h1 (by omega) M (by omega) (x :: o :: (w ++ c :: R)) (.of hx _ (by decide) (by intro h; cases h))
    refine ⟨.cast2 q t, ⟨?_, ?_, ?_⟩, ?_⟩
    · rw [evPrim, SPrim.eval, hq.ev, ht.ev]
    · intro h; rw [SPrim.Ok] at h; exact ⟨hq.ok h.1, ht.ok h.2⟩
    · intro f h; cases h
    · have e1 : ([x] ++ ([o] ++ (w ++ [c]))) ++ R = x :: o :: (w ++ c :: R) := by simp
      refine Lift.extend (t := q) ?_ (by simp) ?_
      · rw [e1]; exact lq
      · rw [e1]; exact step_cast hx ho hc ft
  | bit p e =>
    rw [SPrim.Toks] at h
    obtain ⟨u, _, rfl, h1, _, _, rfl, ⟨o, rfl, ho⟩, w, _, rfl, h2, ⟨c, rfl, hc⟩⟩ := h
    simp only [List.length_append, List.length_cons, List.length_nil] at hk hM
    obtain ⟨t, ht, ft⟩ := g.expr' h2 (by omega) (M := M) (by omega) (R := c :: R) (.of hc R rfl rfl)
    obtain ⟨q, hq, lq⟩ := g.prim p u h1 (by omega) M (by omega) (o :: (w ++ c :: R)) (.of ho _ (by decide) (by intro h; cases h))
    refine ⟨.bitSel q t, ⟨?_, ?_, ?_⟩, ?_⟩
    · rw [evPrim, SPrim.eval, hq.ev, ht.ev]
    · intro h; rw [SPrim.Ok] at h; exact ⟨hq.ok h.1, ht.ok h.2⟩
    · intro f h; cases h
    · have e1 : ([o] ++ (w ++ [c])) ++ R = o :: (w ++ c :: R) := by simp
      refine Lift.extend (t := q) ?_ (by simp) ?_
      · rw [e1]; exact lq
      · rw [e1]; exact step_bit ho hc ft
  | part p pk a b =>
    rw [SPrim.Toks] at h
    obtain ⟨u, _, rfl, h1, _, _, rfl, ⟨o, rfl, ho⟩, v1, _, rfl, h2, z, _, rfl, h3, v2, _, rfl, h4, ⟨c, rfl, hc⟩⟩ := h
    simp only [List.length_append, List.length_cons, List.length_nil] at hk hM
    obtain ⟨t, ht, ft⟩ := g.range (w := v1 ++ (z ++ v2)) ⟨v1, _, rfl, h2, z, v2, rfl, h3, h4⟩ (by simp; omega) (M := M) (by simp; omega) (R := c :: R)
      (.of hc R rfl)
    obtain ⟨q, hq, lq⟩ := g.prim p u h1 (by omega) M (by omega) (o :: (v1 ++ (z ++ (v2 ++ c :: R)))) (.of ho _ (by decide) (by intro h; cases h))
    refine ⟨.index q t, ⟨?_, ?_, ?_⟩, ?_⟩
    · rw [evPrim, SPrim.eval, hq.ev, ht.ev]
    · intro h; rw [SPrim.Ok] at h; exact ⟨hq.ok h.1, ht.ok h.2⟩
    · intro f h; cases h
    · have e1 : ([o] ++ (v1 ++ (z ++ (v2 ++ [c])))) ++ R = o :: (v1 ++ (z ++ (v2 ++ c :: R))) := by simp
      refine Lift.extend (t := q) ?_ (by simp) ?_
      · rw [e1]; exact lq
      · rw [e1]
        refine step_part ho hc (part_noBit h2 h3 M _) ?_
        rw [List.append_assoc, List.append_assoc] at ft
        exact ft
  | dot p i =>
    rw [SPrim.Toks] at h
    obtain ⟨u, _, rfl, h1, _, _, rfl, ⟨x, rfl, hx⟩, ⟨y, rfl, hy⟩⟩ := h
    simp only [List.length_append, List.length_cons, List.length_nil] at hk hM
    obtain ⟨q, hq, lq⟩ := g.prim p u h1 (by omega) M (by omega) (x :: y :: R) (.of hx _ (by decide) (by intro h; cases h))
    refine ⟨.dot q i, ⟨?_, ?_, ?_⟩, Lift.extend (t := q) lq (by simp) (step_dot hx hy)⟩
    · rw [evPrim, SPrim.eval, hq.ev]
    · intro h; rw [SPrim.Ok] at h; exact ⟨hq.ok h.1, h.2⟩
    · intro f h; cases h
  | concat e l =>
    rw [SPrim.Toks] at h
    obtain ⟨_, _, rfl, ⟨o, rfl, ho⟩, w, _, rfl, h1, v, _, rfl, h2, ⟨c, rfl, hc⟩⟩ := h
    simp only [List.length_append, List.length_cons, List.length_nil] at hk hM
    obtain ⟨ts, hts, fts⟩ := g.concat ho hc h1 h2 (by simp; omega) (M := M) (by simp; omega) R
    refine ⟨.concat (.list ts), ⟨?_, ?_, ?_⟩, ?_⟩
    · rw [evPrim, evConcat, SPrim.eval, hts.ev, expsEval]
    · intro h
      rw [SPrim.Ok] at h
      refine ⟨hts.ok (by rw [expsOk]; exact ⟨h.1, h.2.1⟩), ?_⟩
      have := List.length_pos_of_ne_nil h.2.2
      rw [hts.len, List.length_cons]; omega
    · intro f h; cases h
    · refine Lift.head ?_
      simp only [List.append_assoc, List.cons_append, List.nil_append]
      exact head_concat ho fts
  | repl n e l =>
    rw [SPrim.Toks] at h
    obtain ⟨_, _, rfl, ⟨o, rfl, ho⟩, w0, _, rfl, h0, _, _, rfl, ⟨o', rfl, ho'⟩, w, _, rfl, h1, v, _, rfl, h2, _, _, rfl, ⟨c, rfl, hc⟩, ⟨c', rfl, hc'⟩⟩ := h
    simp only [List.length_append, List.length_cons, List.length_nil] at hk hM
    obtain ⟨M, rfl⟩ : ∃ m, M = m + 1 := ⟨M - 1, by omega⟩
    obtain ⟨ts, hts, fts⟩ := g.concat ho' hc h1 h2 (by simp; omega) (M := M) (by simp; omega) (c' :: R)
    have fts : First None' (env B (M + 1)).concatenation (o' :: (w ++ (v ++ c :: c' :: R))) (.list ts) (c' :: R) := fts
    obtain ⟨t, ht, ft⟩ := g.expr' h0 (by omega) (M := M + 1) (by omega) (R := o' :: (w ++ (v ++ c :: c' :: R))) (.of ho' _ rfl rfl)
    refine ⟨.concat (.repl t (.list ts)), ⟨?_, ?_, ?_⟩, ?_⟩
    · have hev := hts.ev
      have hlen := hts.len
      match ts, l with
      | [], l => rw [List.length_cons] at hlen; simp at hlen
      | [t1], [] =>
        rw [evPrim, evConcat, SPrim.eval, ht.ev]
        rw [evExps, evExps, expsEval, expsEval] at hev
        rw [(List.cons.inj hev).1]
      | [t1], e' :: l => simp at hlen
      | t1 :: t2 :: ts, [] => simp at hlen
      | t1 :: t2 :: ts, e' :: l =>
        rw [expsEval] at hev
        rw [evPrim, evConcat, SPrim.eval, ht.ev, evConcat, hev] <;> simp
    · intro h
      rw [SPrim.Ok] at h
      refine ⟨ht.ok h.1, hts.ok (by rw [expsOk]; exact h.2), ?_⟩
      rw [hts.len, List.length_cons]; omega
    · intro f h; cases h
    · refine Lift.head ?_
      simp only [List.append_assoc, List.cons_append, List.nil_append]
      refine head_concat ho ?_
      refine First.bindH (First.tok ho _) (First.bindH (a := some (.repl t (.list ts))) (r1 := c' :: R) (First.some ?_) (First.bindH (First.tok hc' _) (First.ret _ _)))
      exact First.bindH ft (First.bindH (First.some (First.orL (First.map (f := Sum.inl) fts))) (First.ret _ _))
  | pat e l =>
    rw [SPrim.Toks] at h
    obtain ⟨_, _, rfl, ⟨o, rfl, ho⟩, w, _, rfl, h1, v, _, rfl, h2, ⟨c, rfl, hc⟩⟩ := h
    simp only [List.length_append, List.length_cons, List.length_nil] at hk hM
    obtain ⟨ts, hts, fts⟩ := g.sepBy h1 h2 (by simp; omega) (M := M) (by simp; omega) (R := c :: R) (.of hc R rfl)
    refine ⟨.assig false (.list ts), ⟨?_, ?_, ?_⟩, ?_⟩
    · rw [evPrim, evPattern, SPrim.eval, hts.ev, expsEval]
    · intro h
      rw [SPrim.Ok] at h
      exact ⟨hts.ok (by rw [expsOk]; exact h), rfl⟩
    · intro f h; cases h
    · refine Lift.head ?_
      simp only [List.append_assoc, List.cons_append, List.nil_append]
      refine head_pat ho ?_
      exact First.bindH (First.tok ho _) (First.bindH (First.some (First.orL (First.map (f := Pattern.list) fts))) (First.bindH (First.tok hc _) (First.ret _ _)))
  | patKeys f l =>
    rw [SPrim.Toks] at h
    obtain ⟨_, _, rfl, ⟨o, rfl, ho⟩, w, _, rfl, h1, v, _, rfl, h2, ⟨c, rfl, hc⟩⟩ := h
    simp only [List.length_append, List.length_cons, List.length_nil] at hk hM
    have hR' : SepC (c :: R) := .of hc R rfl
    obtain ⟨t, ht, ft⟩ := g.kv h1 (by omega) (M := M) (by omega) (kvs_sep h2 hR')
    obtain ⟨ts, hts, fts⟩ := g.kvs l v h2 (by omega) M (by omega) _ hR'
    refine ⟨.assig false (.keyed (t :: ts)), ⟨?_, ?_, ?_⟩, ?_⟩
    · rw [evPrim, evPattern, SPrim.eval, evKVs, ht.ev, hts.ev]
    · intro h
      rw [SPrim.Ok] at h
      exact ⟨⟨ht.ok h.1, hts.ok h.2⟩, rfl⟩
    · intro f h; cases h
    · refine Lift.head ?_
      simp only [List.append_assoc, List.cons_append, List.nil_append]
      refine head_pat ho (First.bindH (First.tok ho _) (First.head (D' := fun s => tok .RBRACE s = []) (a := some (.keyed (t :: ts))) (r1 := c :: R)
        (First.some (First.orR ?_ (First.orL (First.map (f := Pattern.keyed) ?_)))) (First.bindH (First.tok hc _) (First.ret _ _)) ?_))
      · intro x hx
        obtain ⟨t', r, h4, h5⟩ := mem_bind.1 hx
        rw [mem_pure] at h5; subst h5
        exact kv_dead h1 M _ h4
      · exact (First.bindH ft (First.map (f := fun l => t :: l) (First.many (fts _ (by simp))))).weak
      · intro d s hs; exact bind_nil hs
  | sys f =>
    rw [SPrim.Toks] at h
    obtain ⟨x, rfl, hx, rfl⟩ := h
    have hL : tok .LPAREN R = [] := tok_ne fun y s e h => by
      have := (hR y s e).2.2.2.2 h
      cases this
    refine ⟨.tfCall0 x.text, ⟨?_, ?_, ?_⟩, Lift.head (head_sys hx (tfCall_none hx (bind_nil hL) (bind_nil hL)))⟩
    · rw [evPrim, SPrim.eval]
    · intro h; rw [SPrim.Ok] at h; exact h
    · intro f h; cases h; rfl
  | sysCall f l =>
    rw [SPrim.Toks] at h
    obtain ⟨hw, _, _, rfl, ⟨x, rfl, hx, rfl⟩, _, _, rfl, ⟨o, rfl, ho⟩, w, _, rfl, h1, ⟨c, rfl, hc⟩⟩ := h
    simp only [List.length_append, List.length_cons, List.length_nil] at hk hM
    cases l with
    | nil =>
      rw [argsToks, Spec.SvLrm.Empty] at h1; subst h1
      refine ⟨.call0 (.tfCall0 x.text) none false, ⟨?_, ?_, ?_⟩, ?_⟩
      · rw [evPrim, SPrim.eval, argsEval]
      · intro h; rw [SPrim.Ok] at h; exact ⟨h.1, rfl, rfl⟩
      · intro f h; cases h
      · refine Lift.extend (u := [x]) (v := [o, c]) (t := .tfCall0 x.text) (Lift.head ?_) (by simp) (step_call0 ho hc fun y s e => (hR y s e).2.2.2.1)
        refine head_sys hx (tfCall_none hx ?_ ?_)
        · show (tok .LPAREN >>= _) (o :: c :: R) = []
          rw [bind_apply, tok_pos ho]
          simp only [List.flatMap_cons, List.flatMap_nil, List.append_nil]
          exact bind_nil ((dataType_eNo B M).cons (by rw [hc]; rfl))
        · show (tok .LPAREN >>= _) (o :: c :: R) = []
          rw [bind_apply, tok_pos ho]
          simp only [List.flatMap_cons, List.flatMap_nil, List.append_nil]
          exact bind_nil (listOfArguments_no.cons (by rw [hc]; rfl))
    | cons a l =>
      obtain ⟨t, h2, h3, h4, ft⟩ := g.sysCall (f := x.text) ho hc h1 hw (by omega) (M := M) (by omega) R
      refine ⟨t, ⟨?_, ?_, ?_⟩, ?_⟩
      · rw [h2, SPrim.eval]
      · intro h; rw [SPrim.Ok] at h; exact h3 h.1 h.2
      · intro f h; exact (h4 f h).elim
      · refine Lift.head ?_
        simp only [List.append_assoc, List.cons_append, List.nil_append]
        exact head_sys hx (tfCall_first hx ft)
  | call p l =>
    rw [SPrim.Toks] at h
    obtain ⟨hw, hcl, u, _, rfl, h0, _, _, rfl, ⟨o, rfl, ho⟩, w, _, rfl, h1, ⟨c, rfl, hc⟩⟩ := h
    simp only [List.length_append, List.length_cons, List.length_nil] at hk hM
    obtain ⟨q, hq, lq⟩ := g.prim p u h0 (by omega) M (by omega) (o :: (w ++ c :: R)) (.of ho _ (by decide) (fun _ => hcl))
    have hns : ∀ f, q ≠ .tfCall0 f := by
      intro f e
      rw [hq.sys f e] at hcl; cases hcl
    have e1 : ([o] ++ (w ++ [c])) ++ R = o :: (w ++ c :: R) := by simp
    cases l with
    | nil =>
      rw [argsToks, Spec.SvLrm.Empty] at h1; subst h1
      refine ⟨.call0 q none false, ⟨?_, ?_, ?_⟩, Lift.extend (t := q) lq (by simp) (step_call0 ho hc fun y s e => (hR y s e).2.2.2.1)⟩
      · rw [SPrim.eval, argsEval, ← hq.ev]
        rw [evPrim]
        intro f e; exact hns f e
      · intro h; rw [SPrim.Ok] at h; exact absurd rfl h.2.1
      · intro f h; cases h
    | cons a l =>
      obtain ⟨us, hu, fu⟩ := g.args h1 (by simp) hw (by omega) (M := M) (by omega) (R := c :: R) (.of hc R rfl)
      refine ⟨.call q none us false, ⟨?_, ?_, ?_⟩, ?_⟩
      · rw [evPrim, hu.ev, hq.ev, SPrim.eval]
      · intro h; rw [SPrim.Ok] at h; exact ⟨hq.ok h.1, hu.ok h.2.2, rfl, rfl⟩
      · intro f h; cases h
      · refine Lift.extend (t := q) ?_ (by simp) ?_
        · rw [e1]; exact lq
        · rw [e1]
          refine step_call ho hc ?_ (fun y s e => (hR y s e).2.2.2.1) fu
          intro y s e hy
          rw [argsToks] at h1
          obtain ⟨w, v, rfl, h2, h3⟩ := h1
          rw [List.append_assoc] at e
          cases a with
          | «omit» =>
            rw [SArg.Toks, Spec.SvLrm.Empty] at h2; subst h2
            have hs := more_sep h3 (.of hc R rfl : SepC (c :: R))
            obtain ⟨y', s', e', -, h5⟩ := hs
            rw [List.nil_append, e'] at e; cases e
            rw [hy] at h5; cases h5
          | named i e' =>
            obtain ⟨y', s', rfl, hy'⟩ := named_dot rfl h2
            cases e; rw [hy] at hy'; cases hy'
          | namedEmpty i =>
            obtain ⟨y', s', rfl, hy'⟩ := named_dot rfl h2
            cases e; rw [hy] at hy'; cases hy'
          | pos e' =>
            rw [SArg.Toks] at h2
            obtain ⟨y', s', rfl, hy', -⟩ := exp_begins e' w h2
            cases e; rw [hy] at hy'; cases hy'

end

/-! ## All texts -/

theorem good_zero : Good A B 0 where
  prim := by
    intro p w h hk
    obtain ⟨y, s, rfl, -⟩ := prim_begins p w h
    simp at hk
  expr := by
    intro p w h hk
    obtain ⟨y, s, rfl, -⟩ := exp_begins p w h
    simp at hk
  dtype := by
    intro p w _ h hk
    obtain ⟨y, s, rfl, -⟩ := prim_begins p w h
    simp at hk

theorem good_succ {k : Nat} (g : Good A B k) : Good A B (k + 1) where
  prim := g.primS
  dtype := g.dtypeS
  expr := by
    intro e w h hk M hM R h1 h2 q hq
    cases e with
    | prim p =>
      rw [SExp.Toks] at h
      obtain ⟨t, ht, hl⟩ := g.primS p w h hk M hM R (h1.phead p)
      refine ⟨.prim t, ⟨?_, ?_⟩, prim_exp (hl.stop (primaryStep_nil h1))⟩
      · rw [evExp, SExp.eval, ht.ev]
      · intro h; rw [SExp.Ok] at h; exact ht.ok h
    | un o p =>
      rw [SExp.Toks] at h
      obtain ⟨_, w, rfl, ⟨x, rfl, hx⟩, h3⟩ := h
      simp only [List.length_append, List.length_cons, List.length_nil] at hk hM
      obtain ⟨t, ht, hl⟩ := g.prim p w h3 (by omega) M (by omega) R (h1.phead p)
      refine ⟨.unary o t, ⟨?_, ?_⟩, un_exp hx (prim_begins p w h3) (hl.stop (primaryStep_nil h1))⟩
      · rw [evExp, SExp.eval, ht.ev]
      · intro h; rw [SExp.Ok] at h; exact ht.ok h
    | bin a o b => exact text_bin g h hk hM h1 h2 hq
    | cond c t e => exact text_cond g h hk hM h1 h2 hq

theorem good_all : ∀ k, Good A B k
  | 0 => good_zero
  | k + 1 => good_succ (good_all k)

end

end Verif.Sv
