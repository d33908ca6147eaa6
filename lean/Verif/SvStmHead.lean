import Verif.SvStmFor
/-!
# The tokens SystemVerilog statements begin with
-/
namespace Verif.Sv
open P Verif.Spec.SvLrm Verif.Spec.Sv

variable {V S : Type} {A : Alg V} {Bs : SAlg V S} {B : Rules} {C : StmRules}

/-! ## Where statements begin -/

/-- The alternative of `statementItem` a token begins. -/
def kHead : ST → Nat
  | .KW_UNIQUE | .KW_UNIQUE0 | .KW_PRIORITY | .KW_CASE | .KW_CASEZ | .KW_CASEX => 1
  | .KW_IF => 2
  | .KW_VOID => 3
  | .KW_FOREVER | .KW_REPEAT | .KW_WHILE | .KW_DO | .KW_FOR => 6
  | .KW_RETURN | .KW_BREAK | .KW_CONTINUE => 7
  | .KW_FORK => 8
  | .AT | .HASH => 9
  | .KW_BEGIN => 10
  | .SEMI | .KW_END | .KW_JOIN | .KW_JOIN_ANY | .KW_JOIN_NONE => 20
  | _ => 0

/-- The alternatives up to number `k` do not begin with the token. -/
def later (k : Nat) (t : ST) : Bool := decide (k < kHead t)

theorem later_mono {k m : Nat} (h : k ≤ m) {t : ST} (ht : later m t = true) : later k t = true := by
  simp only [later, decide_eq_true_eq] at ht ⊢; omega

section
variable (B C) (M : Nat) (F : P Stm)
theorem simple_later : NoAt (later 0) (simpleItem B (env B M)) := (simple_no B M).mono fun t => by cases t <;> decide
theorem case_later : NoAt (later 1) (caseStatement (env B M) F) :=
  .optBind (.toks (by decide)) (.bind (.or (.bind (.tok rfl)) (.bind (.toks (by decide)))))
theorem cond_later : NoAt (later 2) (conditionalStatement (env B M) F) := .optBind (.toks (by decide)) (.bind (.tok rfl))
theorem sub_later : NoAt (later 3) (subroutineCallStatement (env B M)) := .bind (.tok rfl)
theorem disable_later : NoAt (later 4) (disableStatement (env B M)) := .bind (.tok rfl)
theorem trigger_later : NoAt (later 5) (eventTrigger (env B M)) := .bind (.or (.bind (.tok rfl)) (.bind (.tok rfl)))
theorem loop_later : NoAt (later 6) (loopStatement (env B M) F) := by
  noat_alts
  refine ⟨.bind ?_, .bind (.tok rfl), .bind (.tok rfl), by simp⟩
  noat_alts
  exact ⟨.bind (.tok rfl), .bind (.toks (by decide)), .bind (.tok rfl), by simp⟩
theorem jump_later : NoAt (later 7) (jumpStatement (env B M)) := by
  refine .bind ?_
  noat_alts
  exact ⟨.bind (.tok rfl), .bind (.tok rfl), .bind (.tok rfl), by simp⟩
theorem par_later : NoAt (later 8) (parBlock C (env B M) F) := .bind (.tok rfl)
theorem timing_later : NoAt (later 9) (timingStatement B (env B M) F) := by
  refine .bind ?_
  noat_alts
  exact ⟨.bind (.bind (.tok rfl)), .bind (.bind (.tok rfl)), .bind (.bind (.tok rfl)), .bind (.bind (.tok rfl)), by simp⟩
theorem seq_later : NoAt (later 10) (seqBlock C (env B M) F) := .bind (.tok rfl)
theorem wait_later : NoAt (later 10) (waitStatement (env B M) F) := .or (.bind (.tok rfl)) (.bind (.tok rfl))
theorem randcase_later : NoAt (later 10) (randcaseStatement (env B M) F) := .bind (.tok rfl)
end

section
variable {F : P Stm} {M : Nat} {w R : List STok} {t : StmItem}

theorem item_simple (h : First None' (simpleItem B (env B M)) w t R) : First None' (statementItem B C (env B M) F) w t R := First.orL h
theorem item_case (hw : ∀ y s, w = y :: s → kHead y.ty = 1) (h : First None' (caseStatement (env B M) F) w t R) :
    First None' (statementItem B C (env B M) F) w t R := by
  have k : ∀ {m : Nat}, m < 1 → ∀ y s, w = y :: s → later m y.ty = true := fun hm y s e => by simp only [later, decide_eq_true_eq, hw y s e]; exact hm
  exact First.orN (simple_later B M w (k (by decide))) (First.orL h)
theorem item_cond (hw : ∀ y s, w = y :: s → kHead y.ty = 2) (h : First None' (conditionalStatement (env B M) F) w t R) :
    First None' (statementItem B C (env B M) F) w t R := by
  have k : ∀ {m : Nat}, m < 2 → ∀ y s, w = y :: s → later m y.ty = true := fun hm y s e => by simp only [later, decide_eq_true_eq, hw y s e]; exact hm
  exact First.orN (simple_later B M w (k (by decide))) (First.orN (case_later B M F w (k (by decide))) (First.orL h))
theorem item_sub (hw : ∀ y s, w = y :: s → kHead y.ty = 3) (h : First None' (subroutineCallStatement (env B M)) w t R) :
    First None' (statementItem B C (env B M) F) w t R := by
  have k : ∀ {m : Nat}, m < 3 → ∀ y s, w = y :: s → later m y.ty = true := fun hm y s e => by simp only [later, decide_eq_true_eq, hw y s e]; exact hm
  exact First.orN (simple_later B M w (k (by decide))) (First.orN (case_later B M F w (k (by decide))) (First.orN (cond_later B M F w (k (by decide)))
    (First.orL h)))
/-- The alternatives in front of the loops. -/
theorem item_six (hw : ∀ y s, w = y :: s → 6 ≤ kHead y.ty) {q : P StmItem} (h : First None' q w t R) : First None' (P.or (simpleItem B (env B M))
    (P.or (caseStatement (env B M) F) (P.or (conditionalStatement (env B M) F) (P.or (subroutineCallStatement (env B M))
    (P.or (disableStatement (env B M) >>= fun _ => pure (.unsupported .disable)) (P.or (eventTrigger (env B M) >>= fun _ => pure (.unsupported .eventTrigger)) q)))))) w t R := by
  have k : ∀ {m : Nat}, m < 6 → ∀ y s, w = y :: s → later m y.ty = true := fun hm y s e => by
    have := hw y s e
    simp only [later, decide_eq_true_eq]; omega
  exact First.orN (simple_later B M w (k (by decide))) (First.orN (case_later B M F w (k (by decide))) (First.orN (cond_later B M F w (k (by decide)))
    (First.orN (sub_later B M w (k (by decide))) (First.orN (bind_nil (disable_later B M w (k (by decide))))
    (First.orN (bind_nil (trigger_later B M w (k (by decide)))) h)))))
theorem item_loop (hw : ∀ y s, w = y :: s → kHead y.ty = 6) (h : First None' (loopStatement (env B M) F) w t R) :
    First None' (statementItem B C (env B M) F) w t R := item_six (fun y s e => by rw [hw y s e]) (First.orL h)
theorem item_jump (hw : ∀ y s, w = y :: s → kHead y.ty = 7) (h : First None' (jumpStatement (env B M)) w t R) :
    First None' (statementItem B C (env B M) F) w t R := by
  have k : ∀ {m : Nat}, m < 7 → ∀ y s, w = y :: s → later m y.ty = true := fun hm y s e => by simp only [later, decide_eq_true_eq, hw y s e]; exact hm
  exact item_six (fun y s e => by rw [hw y s e]; decide) (First.orN (loop_later B M F w (k (by decide))) (First.orL h))
theorem item_par (hw : ∀ y s, w = y :: s → kHead y.ty = 8) (h : First None' (parBlock C (env B M) F) w t R) :
    First None' (statementItem B C (env B M) F) w t R := by
  have k : ∀ {m : Nat}, m < 8 → ∀ y s, w = y :: s → later m y.ty = true := fun hm y s e => by simp only [later, decide_eq_true_eq, hw y s e]; exact hm
  exact item_six (fun y s e => by rw [hw y s e]; decide) (First.orN (loop_later B M F w (k (by decide))) (First.orN (jump_later B M w (k (by decide))) (First.orL h)))
theorem item_timing (hw : ∀ y s, w = y :: s → kHead y.ty = 9) (h : First None' (timingStatement B (env B M) F) w t R) :
    First None' (statementItem B C (env B M) F) w t R := by
  have k : ∀ {m : Nat}, m < 9 → ∀ y s, w = y :: s → later m y.ty = true := fun hm y s e => by simp only [later, decide_eq_true_eq, hw y s e]; exact hm
  exact item_six (fun y s e => by rw [hw y s e]; decide) (First.orN (loop_later B M F w (k (by decide))) (First.orN (jump_later B M w (k (by decide)))
    (First.orN (par_later B C M F w (k (by decide))) (First.orL h))))
theorem item_seq (hw : ∀ y s, w = y :: s → kHead y.ty = 10) (h : First None' (seqBlock C (env B M) F) w t R) :
    First None' (statementItem B C (env B M) F) w t R := by
  have k : ∀ {m : Nat}, m < 10 → ∀ y s, w = y :: s → later m y.ty = true := fun hm y s e => by simp only [later, decide_eq_true_eq, hw y s e]; exact hm
  exact item_six (fun y s e => by rw [hw y s e]; decide) (First.orN (loop_later B M F w (k (by decide))) (First.orN (jump_later B M w (k (by decide)))
    (First.orN (par_later B C M F w (k (by decide))) (First.orN (timing_later B M F w (k (by decide))) (First.orL h)))))
end

/-- No statement begins with `;`, `end`, `join`. -/
theorem statement_end (M n : Nat) {y : STok} (hy : y.ty ∈ stmEnd) (R : List STok) : statement B C (env B M) n (y :: R) = [] := by
  cases n with
  | zero => rfl
  | succ n =>
    have hl : later 10 y.ty = true := by
      simp only [stmEnd, List.mem_cons, List.not_mem_nil, or_false] at hy
      rcases hy with h | h | h | h | h <;> rw [h] <;> rfl
    have hid : identifier (y :: R) = [] := identifier_no.cons (by
      simp only [stmEnd, List.mem_cons, List.not_mem_nil, or_false] at hy
      rcases hy with h | h | h | h | h <;> rw [h] <;> rfl)
    have hp : y.ty ≠ .LPAREN := by
      intro h; rw [h] at hl; cases hl
    show (opt (identifier >>= fun i => tok .COLON >>= fun _ => pure i) >>= fun _ => _) _ = []
    rw [bind_apply, opt_none (bind_nil hid)]
    simp only [List.flatMap_cons, List.flatMap_nil, List.append_nil]
    rw [bind_apply, attributes_ne hp]
    simp only [List.flatMap_cons, List.flatMap_nil, List.append_nil]
    refine bind_nil ?_
    rw [statementItem, alts_apply]
    generalize statement B C (env B M) n = F
    have c : ∀ {α : Type} {p : P α} {k : Nat}, NoAt (later k) p → k ≤ 10 → p (y :: R) = [] := fun hp hk => hp.cons (later_mono hk hl)
    simp only [List.flatMap_cons, List.flatMap_nil, List.append_nil, c (simple_later B M) (by decide), c (case_later B M F) (by decide),
      c (cond_later B M F) (by decide), c (sub_later B M) (by decide), bind_nil (c (disable_later B M) (by decide)),
      bind_nil (c (trigger_later B M) (by decide)), c (loop_later B M F) (by decide), c (jump_later B M) (by decide), c (par_later B C M F) (by decide),
      c (timing_later B M F) (by decide), c (seq_later B C M F) (by decide), bind_nil (c (wait_later B M F) (by decide)),
      bind_nil (C.assertion_end y R hy), bind_nil (C.randsequence_end y R hy), bind_nil (c (randcase_later B M F) (by decide)), bind_nil (C.expect_end y R hy)]

/-- The first token of a statement. -/
theorem simple_starts : ∀ (s : SStm) (w : List STok), s.plain = true → s.Toks w → ∀ R, Named (w ++ R) ∨ ∃ x v, w = x :: v ∧ dNo x.ty = true
  | .null, _, hp, _, _ => by cases hp
  | .label _ _, _, hp, _, _ => by cases hp
  | .assign l o e, w, _, h, R => by
    rw [SStm.Toks] at h
    obtain ⟨_, z, rfl, ⟨ht, u, _, rfl, hu, _, v, rfl, ⟨x, rfl, hx⟩, hv⟩, hz⟩ := h
    rcases target_named ht hu (R := x :: (v ++ (z ++ R))) (.of hx _ (by cases o <;> decide)) with h | ⟨y, s, e, hy⟩
    · left; simpa using h
    · right
      obtain ⟨y', s', rfl, -⟩ := target_head ht hu
      cases e
      exact ⟨y, _, rfl, by rw [hy]; rfl⟩
  | .timed l t e, w, _, h, R => by
    rw [SStm.Toks] at h
    obtain ⟨ht, u, _, rfl, hu, _, v, rfl, ⟨x, rfl, hx⟩, hv⟩ := h
    rcases target_named ht hu (R := x :: (v ++ R)) (.of hx _ (by decide)) with h | ⟨y, s, e, hy⟩
    · left; simpa using h
    · right
      obtain ⟨y', s', rfl, -⟩ := target_head ht hu
      cases e
      exact ⟨y, _, rfl, by rw [hy]; rfl⟩
  | .nonblocking l none e, w, _, h, R => by
    rw [SStm.Toks] at h
    obtain ⟨_, z, rfl, ⟨ht, u, _, rfl, hu, _, v, rfl, ⟨x, rfl, hx⟩, hv⟩, hz⟩ := h
    rcases target_named ht hu (R := x :: (v ++ (z ++ R))) (.of hx _ (by decide)) with h | ⟨y, s, e, hy⟩
    · left; simpa using h
    · right
      obtain ⟨y', s', rfl, -⟩ := target_head ht hu
      cases e
      exact ⟨y, _, rfl, by rw [hy]; rfl⟩
  | .nonblocking l (some t) e, w, _, h, R => by
    rw [SStm.Toks] at h
    obtain ⟨ht, u, _, rfl, hu, _, v, rfl, ⟨x, rfl, hx⟩, hv⟩ := h
    rcases target_named ht hu (R := x :: (v ++ R)) (.of hx _ (by decide)) with h | ⟨y, s, e, hy⟩
    · left; simpa using h
    · right
      obtain ⟨y', s', rfl, -⟩ := target_head ht hu
      cases e
      exact ⟨y, _, rfl, by rw [hy]; rfl⟩
  | .incDec pre inc l, w, _, h, R => by
    rw [SStm.Toks] at h
    obtain ⟨_, z, rfl, ⟨ht, h⟩, hz⟩ := h
    cases pre with
    | true =>
      simp only [if_true] at h
      obtain ⟨_, u, rfl, ⟨x, rfl, hx⟩, hu⟩ := h
      exact .inr ⟨x, _, rfl, by rw [hx]; cases inc <;> rfl⟩
    | false =>
      simp only [Bool.false_eq_true, if_false] at h
      obtain ⟨u, _, rfl, hu, ⟨x, rfl, hx⟩⟩ := h
      rcases target_named ht hu (R := x :: (z ++ R)) (.of hx _ (by cases inc <;> decide)) with h | ⟨y, s, e, hy⟩
      · left; simpa using h
      · right
        obtain ⟨y', s', rfl, -⟩ := target_head ht hu
        cases e
        exact ⟨y, _, rfl, by rw [hy]; rfl⟩
  | .call p, w, _, h, R => by
    rw [SStm.Toks] at h
    obtain ⟨hc, u, _, rfl, hu, ⟨x, rfl, hx⟩⟩ := h
    have key : callable p = true → Named (u ++ [x] ++ R) := fun hc => by
      rw [List.append_assoc]
      exact callable_named p u hc hu _ (.of hx _ (by decide))
    cases p with
    | name i l => exact .inl (key rfl)
    | dot p i => exact .inl (key hc)
    | bit p e => exact .inl (key hc)
    | sys f =>
      rw [SPrim.Toks] at hu
      obtain ⟨y, rfl, hy, -⟩ := hu
      exact .inr ⟨y, _, rfl, by rw [hy]; rfl⟩
    | sysCall f l =>
      rw [SPrim.Toks] at hu
      obtain ⟨-, _, v, rfl, ⟨y, rfl, hy, -⟩, -⟩ := hu
      exact .inr ⟨y, _, rfl, by rw [hy]; rfl⟩
    | call p l =>
      rw [SPrim.Toks] at hu
      obtain ⟨-, hp, a, _, rfl, ha, _, b, rfl, ⟨y, rfl, hy⟩, hb⟩ := hu
      left
      simp only [List.append_assoc]
      exact callable_named p a hp ha _ (.of hy _ (by decide))
    | _ => cases hc
  | .voidCall e, w, _, h, R => by
    rw [SStm.Toks] at h
    obtain ⟨_, _, rfl, ⟨x, rfl, hx⟩, -⟩ := h
    exact .inr ⟨x, _, rfl, by rw [hx]; rfl⟩
  | .case u k e c l, w, _, h, R => by
    rw [SStm.Toks] at h
    obtain ⟨a, _, rfl, ha, _, _, rfl, ⟨x, rfl, hx⟩, -⟩ := h
    right
    rcases u with _ | ⟨_ | _ | _⟩ <;> rw [uniqToks] at ha
    · rw [Spec.SvLrm.Empty] at ha; subst ha
      exact ⟨x, _, rfl, by rw [hx]; cases k <;> rfl⟩
    all_goals
      obtain ⟨y, rfl, hy⟩ := ha
      exact ⟨y, _, rfl, by rw [hy]; rfl⟩
  | .ite c t, w, _, h, R => by
    rw [SStm.Toks] at h
    obtain ⟨_, _, rfl, ⟨x, rfl, hx⟩, -⟩ := h
    exact .inr ⟨x, _, rfl, by rw [hx]; rfl⟩
  | .iteElse c t f, w, _, h, R => by
    rw [SStm.Toks] at h
    obtain ⟨-, _, _, rfl, ⟨x, rfl, hx⟩, -⟩ := h
    exact .inr ⟨x, _, rfl, by rw [hx]; rfl⟩
  | .forever b, w, _, h, R => by
    rw [SStm.Toks] at h
    obtain ⟨_, _, rfl, ⟨x, rfl, hx⟩, -⟩ := h
    exact .inr ⟨x, _, rfl, by rw [hx]; rfl⟩
  | .repeat_ e b, w, _, h, R => by
    rw [SStm.Toks] at h
    obtain ⟨_, _, rfl, ⟨x, rfl, hx⟩, -⟩ := h
    exact .inr ⟨x, _, rfl, by rw [hx]; rfl⟩
  | .while_ e b, w, _, h, R => by
    rw [SStm.Toks] at h
    obtain ⟨_, _, rfl, ⟨x, rfl, hx⟩, -⟩ := h
    exact .inr ⟨x, _, rfl, by rw [hx]; rfl⟩
  | .doWhile b e, w, _, h, R => by
    rw [SStm.Toks] at h
    obtain ⟨_, _, rfl, ⟨x, rfl, hx⟩, -⟩ := h
    exact .inr ⟨x, _, rfl, by rw [hx]; rfl⟩
  | .for_ i c s b, w, _, h, R => by
    rw [SStm.Toks] at h
    obtain ⟨_, _, rfl, ⟨x, rfl, hx⟩, -⟩ := h
    exact .inr ⟨x, _, rfl, by rw [hx]; rfl⟩
  | .ret e, w, _, h, R => by
    rw [SStm.Toks] at h
    obtain ⟨_, _, rfl, ⟨x, rfl, hx⟩, -⟩ := h
    exact .inr ⟨x, _, rfl, by rw [hx]; rfl⟩
  | .break_, w, _, h, R => by
    rw [SStm.Toks] at h
    obtain ⟨_, _, rfl, ⟨x, rfl, hx⟩, -⟩ := h
    exact .inr ⟨x, _, rfl, by rw [hx]; rfl⟩
  | .continue_, w, _, h, R => by
    rw [SStm.Toks] at h
    obtain ⟨_, _, rfl, ⟨x, rfl, hx⟩, -⟩ := h
    exact .inr ⟨x, _, rfl, by rw [hx]; rfl⟩
  | .block n l e, w, _, h, R => by
    rw [SStm.Toks] at h
    obtain ⟨_, _, rfl, ⟨x, rfl, hx⟩, -⟩ := h
    exact .inr ⟨x, _, rfl, by rw [hx]; rfl⟩
  | .fork n l j e, w, _, h, R => by
    rw [SStm.Toks] at h
    obtain ⟨_, _, rfl, ⟨x, rfl, hx⟩, -⟩ := h
    exact .inr ⟨x, _, rfl, by rw [hx]; rfl⟩
  | .timing t b, w, _, h, R => by
    rw [SStm.Toks] at h
    obtain ⟨u, v, rfl, hu, -⟩ := h
    obtain ⟨x, s, rfl, hx⟩ := timing_head hu
    exact .inr ⟨x, _, rfl, by rcases hx with h | h <;> rw [h] <;> rfl⟩

theorem stm_starts (s : SStm) (w : List STok) (h : s.Toks w) (R : List STok) : NamedOrLabel (w ++ R) ∨ ∃ x v, w = x :: v ∧ dNo x.ty = true := by
  by_cases hp : s.plain = true
  · exact (simple_starts s w hp h R).imp_left Named.label
  · cases s with
    | null =>
      rw [SStm.Toks] at h
      obtain ⟨x, rfl, hx⟩ := h
      exact .inr ⟨x, _, rfl, by rw [hx]; rfl⟩
    | label i s =>
      rw [SStm.Toks] at h
      obtain ⟨-, _, _, rfl, ⟨x, rfl, hx⟩, _, v, rfl, ⟨y, rfl, hy⟩, -⟩ := h
      refine .inl ⟨i, x, y :: (v ++ R), by simp, hx, [], [], y :: (v ++ R), rfl, ?_, .stop ?_, ?_⟩
      · rw [idsToks, Spec.SvLrm.Empty]
      · rintro _ _ ⟨⟩; rw [hy]; decide
      · rintro _ _ ⟨⟩; rw [hy]; decide
    | _ => exact (hp rfl).elim

/-- A token no statement begins with. -/
theorem stm_ne {s : SStm} {w : List STok} (h : s.Toks w) {t : ST} (ht : isIdTok t = false) (ht2 : dNo t = false) (R : List STok) :
    ∀ y v, w ++ R = y :: v → y.ty ≠ t := by
  rintro y v e rfl
  rcases stm_starts s w h R with ⟨i, x, r, h1, h2, -⟩ | ⟨x, r, rfl, h2⟩
  · rw [h1] at e; cases e; exact ident_notPath h2 ht rfl
  · cases e; rw [h2] at ht2; cases ht2

theorem stm_nonempty {s : SStm} {w : List STok} (h : s.Toks w) : w ≠ [] := by
  rintro rfl
  rcases stm_starts s [] h [] with ⟨i, x, r, h1, -⟩ | ⟨x, r, h1, -⟩ <;> cases h1

theorem stm_decl {s : SStm} {w : List STok} (h : s.Toks w) (M : Nat) (R : List STok) : blockItemDeclaration C (env B M) (w ++ R) = [] := by
  rcases stm_starts s w h R with h1 | ⟨x, r, rfl, h2⟩
  · exact decl_name C M h1
  · exact (decl_no B C M).cons h2

theorem stm_label {s : SStm} {w : List STok} (hp : s.plain = true) (h : s.Toks w) (R : List STok) :
    (identifier >>= fun i => tok .COLON >>= fun _ => (pure i : P Ident)) (w ++ R) = [] := by
  rcases simple_starts s w hp h R with ⟨i, x, r, h1, h2, -, h3⟩ | ⟨x, r, rfl, h2⟩
  · rw [h1]
    refine List.eq_nil_iff_forall_not_mem.2 fun z hz => ?_
    obtain ⟨a, r', h4, h5⟩ := mem_bind.1 hz
    obtain ⟨y, e⟩ := ident_rest h4
    cases e
    exact nil_mem h5 (bind_nil (tok_ne h3))
  · refine bind_nil (identifier_no.cons ?_)
    revert h2; generalize x.ty = t; cases t <;> decide

theorem stm_attributes {s : SStm} {w : List STok} (h : s.Toks w) (E : Env) (R : List STok) : attributes E (w ++ R) = [([], w ++ R)] :=
  many_none (bind_nil (tok_ne (stm_ne h rfl rfl R)))

end Verif.Sv
