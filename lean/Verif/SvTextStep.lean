import Verif.SvTextMain
/-!
# The parse of a SystemVerilog expression: the cases
-/
namespace Verif.Sv
open P Verif.Spec.SvLrm Verif.Spec.Sv

section
variable {V : Type} (A : Alg V) (B : Rules)

/-- Behind a data type. -/
def DEnd (R : List STok) : Prop := ∀ y s, R = y :: s → y.ty ≠ .HASH ∧ y.ty ≠ .DOUBLE_COLON ∧ y.ty ≠ .LSQUARE_BR

/-- All texts with at most `k` tokens are parsed right. -/
structure Good (k : Nat) : Prop where
  prim : ∀ (p : SPrim) (w : List STok), p.Toks w → w.length ≤ k → ∀ M, w.length ≤ M → ∀ R, PHead p R → ∃ t, MPr A t p ∧
    Lift (primaryStep B (env B M)) (primary B (env B M)) w R t
  expr : ∀ (e : SExp) (w : List STok), e.Toks w → w.length ≤ k → ∀ M, w.length ≤ M → ∀ R, PEnds R → Ends (endPrec e) R → ∀ q, q ≤ rowPrec e.row →
    ∃ t, ME A t e ∧ Lift (expressionStep (env B M) q) (expressionRule B (env B M) q) w R t
  dtype : ∀ (p : SPrim) (w : List STok), tyP p = true → p.Toks w → w.length ≤ k → ∀ M, w.length ≤ M → ∀ R, DEnd R → ∃ t, MD A t p ∧
    First None' (dataType B (env B M)) (w ++ R) t R

variable {A B}

theorem row_end (e : SExp) : rowPrec e.row ≤ endPrec e := by
  unfold endPrec
  split
  · rename_i h; rw [h]; decide
  · split
    · rename_i h; rw [h]; decide
    · omega

section
variable {k : Nat} (g : Good A B k)
include g

/-- An expression as operand of a rule called with precedence `q`. -/
theorem Good.exprQ {e : SExp} {w : List STok} (h : e.Toks w) (hk : w.length ≤ k) {M : Nat} (hM : w.length < M) {R : List STok} (h1 : PEnds R) {q : Nat}
    (h2 : Ends q R) (hq : q ≤ rowPrec e.row) : ∃ t, ME A t e ∧ First None' ((env B M).expression q) (w ++ R) t R := by
  obtain ⟨M, rfl⟩ : ∃ m, M = m + 1 := ⟨M - 1, by omega⟩
  obtain ⟨t, ht, hl⟩ := g.expr e w h hk M (by omega) R h1 (h2.mono (Nat.le_trans hq (row_end e))) q hq
  exact ⟨t, ht, hl.stop (expressionStep_nil h2)⟩

theorem Good.expr' {e : SExp} {w : List STok} (h : e.Toks w) (hk : w.length ≤ k) {M : Nat} (hM : w.length < M) {R : List STok} (hR : Sep R) :
    ∃ t, ME A t e ∧ First None' ((env B M).expression 0) (w ++ R) t R := g.exprQ h hk hM hR.pends (hR.ends 0) (Nat.zero_le _)

/-! ## Operators -/

theorem text_cond {c t e : SExp} {w : List STok} (h : (SExp.cond c t e).Toks w) (hk : w.length ≤ k + 1) {M : Nat} (hM : w.length ≤ M)
    {R : List STok} (h1 : PEnds R) (h2 : Ends 2 R) {q : Nat} (hq : q ≤ 2) :
    ∃ t', ME A t' (.cond c t e) ∧ Lift (expressionStep (env B M) q) (expressionRule B (env B M) q) w R t' := by
  rw [SExp.Toks] at h
  obtain ⟨hc, he, u1, _, rfl, t1, _, _, rfl, ⟨x, rfl, hx⟩, u2, _, rfl, t2, _, u3, rfl, ⟨y, rfl, hy⟩, t3⟩ := h
  simp only [List.length_append, List.length_cons, List.length_nil] at hk hM
  obtain ⟨ta, ha, la⟩ := g.expr c u1 t1 (by omega) M (by omega) (x :: (u2 ++ y :: (u3 ++ R)))
    (by intro _ _ e; cases e; rw [hx]; rfl) (by
      intro _ _ e; cases e
      refine .inr (.inl ?_)
      have h3 : opPrec x.ty = 2 := by rw [hx]; rfl
      have := row_end c
      have h4 : 2 < rowPrec c.row := by unfold rowPrec; repeat' split
                                        all_goals omega
      omega) q (by
      have h4 : 2 < rowPrec c.row := by unfold rowPrec; repeat' split
                                        all_goals omega
      omega)
  obtain ⟨tb, hb, fb⟩ := g.expr' t2 (by omega) (M := M) (by omega) (R := y :: (u3 ++ R)) (.of hy _ rfl rfl)
  obtain ⟨tc, hc', fc⟩ := g.exprQ t3 (by omega) (M := M) (by omega) h1 h2 (by unfold rowPrec; repeat' split
                                                                              all_goals omega)
  refine ⟨.cond ta false tb tc, ⟨?_, ?_⟩, ?_⟩
  · rw [evExp, SExp.eval, ha.ev, hb.ev, hc'.ev]
  · intro h; rw [SExp.Ok] at h; exact ⟨rfl, ha.ok h.1, hb.ok h.2.1, hc'.ok h.2.2⟩
  · have e1 : ([x] ++ (u2 ++ ([y] ++ u3))) ++ R = x :: (u2 ++ y :: (u3 ++ R)) := by simp
    refine Lift.extend (v := [x] ++ (u2 ++ ([y] ++ u3))) (t := ta) ?_ (by simp) ?_
    · rw [e1]; exact la
    · rw [e1]
      refine step_cond hx hq ?_
      exact First.bindH (First.of_eq (attributes_none (exp_begins t u2 t2) _)) (First.bindH fb (First.bindH (First.tok hy _)
        (First.map (f := fun e => Exp.cond ta false tb e) fc)))

theorem text_bin {a b : SExp} {o : BinOp} {w : List STok} (h : (SExp.bin a o b).Toks w) (hk : w.length ≤ k + 1) {M : Nat} (hM : w.length ≤ M)
    {R : List STok} (h1 : PEnds R) (h2 : Ends (endPrec (.bin a o b)) R) {q : Nat} (hq : q ≤ rowPrec (BinOp.row o)) :
    ∃ t', ME A t' (.bin a o b) ∧ Lift (expressionStep (env B M) q) (expressionRule B (env B M) q) w R t' := by
  rw [SExp.Toks] at h
  obtain ⟨hab, u1, _, rfl, t1, _, u2, rfl, ⟨x, rfl, hx⟩, t2⟩ := h
  simp only [List.length_append, List.length_cons, List.length_nil] at hk hM
  have hro : 3 ≤ BinOp.row o ∧ BinOp.row o ≤ 15 ∧ BinOp.row o ≠ 14 := by cases o <;> decide
  have hra : a.row ≤ 15 := by
    unfold BinOp.Operands at hab; split at hab <;> omega
  have hrb : b.row ≤ 15 := by
    unfold BinOp.Operands at hab; split at hab <;> omega
  have hop : opPrec x.ty = rowPrec (BinOp.row o) := by rw [hx]; exact row_op o
  have hpa : rowPrec (BinOp.row o) ≤ rowPrec a.row ∧ rowPrec (BinOp.row o) < endPrec a := by
    unfold BinOp.Operands at hab
    unfold endPrec rowPrec
    split at hab <;> repeat' split
    all_goals omega
  have hpb : nextPrec o ≤ rowPrec b.row := by
    unfold BinOp.Operands at hab
    unfold nextPrec rowPrec
    split at hab <;> repeat' split
    all_goals omega
  have hen : endPrec (.bin a o b) = nextPrec o := by
    unfold endPrec nextPrec SExp.row
    rw [if_neg hro.2.2]
  obtain ⟨ta, ha, la⟩ := g.expr a u1 t1 (by omega) M (by omega) (x :: (u2 ++ R))
    (by intro _ _ e; cases e; rw [hx]; cases o <;> rfl) (by
      intro _ _ e; cases e
      exact .inr (.inl (by omega))) q (by omega)
  rw [hen] at h2
  obtain ⟨tb, hb, fb⟩ := g.exprQ t2 (by omega) (M := M) (by omega) h1 h2 hpb
  refine ⟨.bin ta o tb, ⟨?_, ?_⟩, ?_⟩
  · rw [evExp, SExp.eval, ha.ev, hb.ev]
  · intro h; rw [SExp.Ok] at h; exact ⟨ha.ok h.1, hb.ok h.2.1, h.2.2⟩
  · refine Lift.extend (v := [x] ++ u2) (t := ta) la (by simp) ?_
    exact step_bin hx hq (First.bindH (First.of_eq (attributes_none (exp_begins b u2 t2) _)) (First.map (f := fun b => Exp.bin ta o b) fb))

end

/-- A primary as operand. -/
theorem prim_exp {E : Env} {q : Nat} {w R : List STok} {t : Prim} (h : First None' (primary B E) (w ++ R) t R) :
    Lift (expressionStep E q) (expressionRule B E q) w R (.prim t) := Lift.head (First.orL (First.map (f := Exp.prim) h))

theorem un_exp {E : Env} {q : Nat} {o : UnOp} {x : STok} {w R : List STok} {t : Prim} (hx : x.ty = UnOp.ty o) (hw : Begins pNo w)
    (h : First None' (primary B E) (w ++ R) t R) : Lift (expressionStep E q) (expressionRule B E q) (x :: w) R (.unary o t) := by
  refine Lift.head ?_
  have hu := unTok_eNo o
  refine First.orN (bind_nil ((primary_pNo B E).cons (by rw [pNo, hx, hu.2.1, Bool.or_true]))) (First.orN (bind_nil (tok_neg ?_ _))
    (First.orN (bind_nil (tok_neg ?_ _)) (First.orL ?_)))
  · rw [hx]; exact hu.2.2
  · rw [hx]; cases o <;> decide
  · refine First.bindH (First.of_eq (toks_one (a := o) ?_ _)) (First.bindH (First.of_eq (attributes_none hw R))
      (First.map (f := fun p => Exp.unary o p) h))
    rw [hx]; cases o <;> rfl

/-! ## Primaries -/

section
variable {E : Env} {R : List STok}

theorem head_lit {l : Lit} {w : List STok} (h : Lit.Toks l w) (hR : ∀ y s, R = y :: s → y.ty ≠ .ANY_BASED_NUMBER) :
    First None' (primaryHead B E) (w ++ R) (.lit l) R := First.orL (First.map (f := Prim.lit) (lit_first h hR))

theorem head_name {i : Ident} {l : List Ident} {w : List STok} (h : Cat (OneP (Ident.Tok i)) (idsToks l) w) (hR : NameEnd R) :
    First None' (primaryHead B E) (w ++ R) (.path (namePath i l)) R := by
  refine First.orN (bind_nil ?_) (First.orL (First.map (f := Prim.path) (path_first h hR)))
  obtain ⟨_, v, rfl, ⟨x, rfl, hx⟩, h2⟩ := h
  refine literal_no.cons ?_
  have := ident_id hx
  generalize x.ty = t at this
  cases t <;> first | rfl | cases this

theorem head_paren {x y : STok} {w : List STok} {t : Exp} (hx : x.ty = .LPAREN) (hy : y.ty = .RPAREN)
    (h : First None' (E.expression 0) (w ++ y :: R) t (y :: R)) : First None' (primaryHead B E) (x :: (w ++ y :: R)) (.par (.one t)) R := by
  refine First.orN (bind_nil (literal_no.cons (by rw [hx]; rfl))) (First.orN (bind_nil ((path_no E).cons (by rw [hx]; rfl))) (First.orL ?_))
  refine First.bindH (First.tok hx _) (First.bindH (a := MTM.one t) (r1 := y :: R) ?_ (First.bindH (First.tok hy R) (First.ret _ _)))
  exact First.bindH h (First.bindH (First.noneE (bind_nil (tok_neg (by rw [hy]; decide) R))) (First.ret _ _))

/-- The alternatives in front of the one for `{`, for a system function and for an assignment pattern. -/
theorem head_concat {x : STok} {s : List STok} {c : Concat} (hx : x.ty = .LBRACE) (h : First None' (concatenation E) (x :: s) c R) :
    First None' (primaryHead B E) (x :: s) (.concat c) R := by
  refine First.orN (bind_nil (literal_no.cons (by rw [hx]; rfl))) (First.orN (bind_nil ((path_no E).cons (by rw [hx]; rfl))) (First.orN
    (bind_nil (tok_neg (by rw [hx]; decide) _)) (First.orN (bind_nil ?_) (First.orL (First.map (f := Prim.concat) h)))))
  have : NoAt (fun t => t == .LBRACE) (alts [skip (tok .KW_STRING), skip (tok .KW_CONST), skip integerType, skip nonIntegerType, skip signing]) := by
    noat_alts
    exact ⟨.bind (.tok rfl), .bind (.tok rfl), .bind (.or (.texts (by decide)) (.texts (by decide))), .bind (.texts (by decide)),
      .bind (.toks (by decide)), by simp⟩
  exact this.cons (by rw [hx]; rfl)

theorem head_sys {x : STok} {s : List STok} {t : Prim} (hx : x.ty = .SYSTEM_TF_IDENTIFIER) (h : First None' (tfCall E) (x :: s) t R) :
    First None' (primaryHead B E) (x :: s) t R := by
  refine First.orN (bind_nil (literal_no.cons (by rw [hx]; rfl))) (First.orN (bind_nil ((path_no E).cons (by rw [hx]; rfl))) (First.orN
    (bind_nil (tok_neg (by rw [hx]; decide) _)) (First.orN (bind_nil ?_) (First.orN (bind_nil (bind_nil (tok_neg (by rw [hx]; decide) _)))
    (First.orN (bind_nil (bind_nil (tok_neg (by rw [hx]; decide) _))) (First.orL h))))))
  have : NoAt (fun t => t == .SYSTEM_TF_IDENTIFIER) (alts [skip (tok .KW_STRING), skip (tok .KW_CONST), skip integerType, skip nonIntegerType, skip signing]) := by
    noat_alts
    exact ⟨.bind (.tok rfl), .bind (.tok rfl), .bind (.or (.texts (by decide)) (.texts (by decide))), .bind (.texts (by decide)),
      .bind (.toks (by decide)), by simp⟩
  exact this.cons (by rw [hx]; rfl)

theorem head_pat {x : STok} {s : List STok} {t : Pattern} (hx : x.ty = .APOSTROPHE_LBRACE) (h : First None' (assignmentPattern E) (x :: s) t R) :
    First None' (primaryHead B E) (x :: s) (.assig false t) R := by
  refine First.orN (bind_nil (literal_no.cons (by rw [hx]; rfl))) (First.orN (bind_nil ((path_no E).cons (by rw [hx]; rfl))) (First.orN
    (bind_nil (tok_neg (by rw [hx]; decide) _)) (First.orN (bind_nil ?_) (First.orN (bind_nil (bind_nil (tok_neg (by rw [hx]; decide) _)))
    (First.orN (bind_nil (bind_nil (tok_neg (by rw [hx]; decide) _))) (First.orN (bind_nil ?_) (First.orN ?_ (First.orL ?_))))))))
  · have : NoAt (fun t => t == .APOSTROPHE_LBRACE) (alts [skip (tok .KW_STRING), skip (tok .KW_CONST), skip integerType, skip nonIntegerType, skip signing]) := by
      noat_alts
      exact ⟨.bind (.tok rfl), .bind (.tok rfl), .bind (.or (.texts (by decide)) (.texts (by decide))), .bind (.texts (by decide)),
        .bind (.toks (by decide)), by simp⟩
    exact this.cons (by rw [hx]; rfl)
  · have : NoAt (fun t => t == .APOSTROPHE_LBRACE) anySystemTfIdentifier := .texts (by decide)
    exact this.cons (by rw [hx]; rfl)
  · have : NoAt (fun t => t == .APOSTROPHE_LBRACE) (opt (do let _ ← tok .KW_STD; tok .DOUBLE_COLON) >>= fun _ => randomizeCall B >>= fun _ => pure Prim.randomize) :=
      .optBind (.bind (.tok rfl)) (.bind (.bind (.tok rfl)))
    exact this.cons (by rw [hx]; rfl)
  · have : NoAt (fun t => t == .APOSTROPHE_LBRACE) (patternType E) := by
      noat_alts
      refine ⟨.bind ((path_no E).mono ?_), .bind (.texts (by decide)), .bind (.bind (.tok rfl)), by simp⟩
      intro t ht; cases t <;> first | rfl | cases ht
    refine First.map (f := fun a => Prim.assig a.1 a.2) (a := (false, t)) ?_
    exact First.bindH (First.noneE (this.cons (by rw [hx]; rfl))) (First.map (f := fun a => (false, a)) h)

/-! ### What follows a primary -/

variable {t : Prim}

theorem step_cast {x o c : STok} {w : List STok} {e : Exp} (hx : x.ty = .APOSTROPHE) (ho : o.ty = .LPAREN) (hc : c.ty = .RPAREN)
    (h : First None' (E.expression 0) (w ++ c :: R) e (c :: R)) : First None' (primaryStep B E t) (x :: o :: (w ++ c :: R)) (.cast2 t e) R :=
  First.orL (First.bindH (First.tok hx _) (First.bindH (First.tok ho _) (First.bindH h (First.bindH (First.tok hc _) (First.ret _ _)))))

theorem step_bit {o c : STok} {w : List STok} {e : Exp} (ho : o.ty = .LSQUARE_BR) (hc : c.ty = .RSQUARE_BR)
    (h : First None' (E.expression 0) (w ++ c :: R) e (c :: R)) : First None' (primaryStep B E t) (o :: (w ++ c :: R)) (.bitSel t e) R :=
  First.orN (bind_nil (tok_neg (by rw [ho]; decide) _)) (First.orL (First.map (f := fun e => Prim.bitSel t e) (First.bindH (First.tok ho _) (First.bindH h
    (First.bindH (First.tok hc _) (First.ret _ _))))))

theorem step_dot {x y : STok} {i : Ident} (hx : x.ty = .DOT) (hy : Ident.Tok i y) : First None' (primaryStep B E t) (x :: y :: R) (.dot t i) R :=
  First.orN (bind_nil (tok_neg (by rw [hx]; decide) _)) (First.orN (bind_nil (bind_nil (tok_neg (by rw [hx]; decide) _))) (First.orL
    (First.bindH (First.tok hx _) (First.map (f := fun i => Prim.dot t i) (identifier_first hy R)))))

theorem step_part {o c : STok} {s : List STok} {r : ARange} (ho : o.ty = .LSQUARE_BR) (hc : c.ty = .RSQUARE_BR)
    (hno : ∀ x ∈ E.expression 0 s, tok .RSQUARE_BR x.2 = [])
    (h : First None' (arrayRange E) s r (c :: R)) : First None' (primaryStep B E t) (o :: s) (.index t r) R := by
  refine First.orN (bind_nil (tok_neg (by rw [ho]; decide) _)) (First.orN (bind_nil ?_) (First.orN (bind_nil (tok_neg (by rw [ho]; decide) _)) (First.orL ?_)))
  · apply List.eq_nil_iff_forall_not_mem.2
    intro x hx
    obtain ⟨_, r1, h1, h2⟩ := mem_bind.1 hx
    rw [tok_pos ho] at h1
    simp only [List.mem_singleton] at h1
    cases h1
    obtain ⟨e, r2, h3, h4⟩ := mem_bind.1 h2
    rw [bind_nil (hno _ h3)] at h4
    cases h4
  · exact First.bindH (First.tok ho _) (First.bindH h (First.bindH (First.tok hc _) (First.ret _ _)))

/-- Dead rests of a list of arguments. -/
def DotD (r : List STok) : Prop := ∃ y s, r = y :: s ∧ y.ty = .DOT

theorem DotD.tok {r : List STok} (h : DotD r) {t : ST} (ht : t ≠ .DOT) : tok t r = [] := by
  obtain ⟨y, s, rfl, hy⟩ := h
  exact tok_neg (by rw [hy]; exact ht.symm) s

theorem with_none (hR : ∀ y s, R = y :: s → y.ty ≠ .KW_WITH) : opt (withClause E) R = [(none, R)] := opt_none (bind_nil (tok_ne hR))

/-- Neither an attribute instance nor a name of a method in front of the arguments. -/
theorem step_call_pre {o : STok} {s : List STok} {r : Prim} (ho : o.ty = .LPAREN) (hs : ∀ y s', s = y :: s' → y.ty ≠ .MUL)
    (h : First None' (do
      let l ← opt (listOfArguments E)
      let _ ← tok .RPAREN
      let w ← opt (withClause E)
      return match l with
        | none => .call0 t none w.isSome
        | some l => .call t none l w.isSome : P Prim) s r R) : First None' (primaryStep B E t) (o :: s) r R := by
  refine First.orN (bind_nil (tok_neg (by rw [ho]; decide) _)) (First.orN (bind_nil (bind_nil (tok_neg (by rw [ho]; decide) _)))
    (First.orN (bind_nil (tok_neg (by rw [ho]; decide) _)) (First.orN (bind_nil (tok_neg (by rw [ho]; decide) _)) (First.orN
    (bind_nil (tok_neg (by rw [ho]; decide) _)) (First.orL ?_)))))
  refine First.bindH (First.noneE (bind_nil (tok_neg (by rw [ho]; decide) _))) (First.bindH (a := []) (r1 := o :: s) (First.of_eq (many_none ?_))
    (First.bindH (First.tok ho _) h))
  unfold attributeInstance
  rw [bind_apply, tok_pos ho]
  simp only [List.flatMap_cons, List.flatMap_nil, List.append_nil]
  exact bind_nil (tok_ne hs)

theorem step_call {o c : STok} {w : List STok} {l : List Arg} (ho : o.ty = .LPAREN) (hc : c.ty = .RPAREN) (hs : ∀ y s', w ++ c :: R = y :: s' → y.ty ≠ .MUL)
    (hR : ∀ y s, R = y :: s → y.ty ≠ .KW_WITH) (h : First DotD (listOfArguments E) (w ++ c :: R) l (c :: R)) :
    First None' (primaryStep B E t) (o :: (w ++ c :: R)) (.call t none l false) R := by
  refine step_call_pre ho hs ?_
  refine First.head (First.some h) (First.bindH (First.tok hc _) (First.bindH (First.of_eq (with_none hR)) (First.ret _ _))) ?_
  intro l s hs
  exact bind_nil (hs.tok (by decide))

theorem namedArgument_no {N : ST → Bool} (h : N .DOT = false) : NoAt N (namedArgument E) := .bind (.tok h)

end

theorem listOfArguments_no {M : Nat} : NoAt (fun t => t == .RPAREN) (listOfArguments (env B M)) := by
  refine .bind ?_
  noat_alts
  refine ⟨.bind (namedArgument_no rfl), .bind (.tok rfl), .bind ((expression_eNo B M 0).mono ?_), .bind (.bind (.bind (.tok rfl))), by simp⟩
  intro t ht; simp only [beq_iff_eq] at ht; subst ht; rfl

theorem step_call0 {M : Nat} {t : Prim} {R : List STok} {o c : STok} (ho : o.ty = .LPAREN) (hc : c.ty = .RPAREN)
    (hR : ∀ y s, R = y :: s → y.ty ≠ .KW_WITH) : First None' (primaryStep B (env B M) t) (o :: c :: R) (.call0 t none false) R := by
  refine step_call_pre ho (by intro y s e; cases e; rw [hc]; decide) ?_
  exact First.bindH (First.noneE (listOfArguments_no.cons (by rw [hc]; rfl))) (First.bindH (First.tok hc _)
    (First.bindH (First.of_eq (with_none hR)) (First.ret _ _)))

end

end Verif.Sv
