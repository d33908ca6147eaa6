import Verif.SvStmDecl
/-!
# The parse of the head of a `for` loop
-/
namespace Verif.Sv
open P Verif.Spec.SvLrm Verif.Spec.Sv

variable {V S : Type} {A : Alg V} {Bs : SAlg V S} {B : Rules}

theorem all2_map {α β γ : Type} {M : α → β → Prop} {f : α → γ} {g : β → γ} (h : ∀ a b, M a b → f a = g b) : ∀ {l : List α} {m : List β}, All2 M l m →
    l.map f = m.map g
  | _, _, .nil => rfl
  | _, _, .cons h1 h2 => by rw [List.map_cons, List.map_cons, h _ _ h1, all2_map h h2]

theorem all2_all {α β : Type} {M : α → β → Prop} {p : α → Prop} {q : β → Prop} (h : ∀ a b, M a b → q b → p a) : ∀ {l : List α} {m : List β}, All2 M l m →
    (∀ b ∈ m, q b) → ∀ a ∈ l, p a
  | _, _, .nil, _ => by simp
  | _, _, .cons h1 h2, hq => by
    intro a ha
    rcases List.mem_cons.1 ha with rfl | ha
    · exact h _ _ h1 (hq _ (by simp))
    · exact all2_all h h2 (fun b hb => hq b (by simp [hb])) a ha

/-! ## The start -/

variable (A) in
structure MVa (t : LVal × Exp) (s : SPrim × SExp) : Prop where
  lv : MLv A t.1 s.1
  ex : ME A t.2 s.2

variable (A) in
structure MDc (t : Ident × Exp) (s : Ident × SExp) : Prop where
  id : t.1 = s.1
  ex : ME A t.2 s.2

/-- `,` or `;` -/
def CommaSemi (R : List STok) : Prop := ∃ y s, R = y :: s ∧ (y.ty = .COMMA ∨ y.ty = .SEMI)
theorem CommaSemi.sep {R : List STok} (h : CommaSemi R) : Sep R := by
  obtain ⟨y, s, rfl, h | h⟩ := h
  · exact .of h _ rfl rfl
  · exact .of h _ rfl rfl

theorem varAssign_first {a : SPrim × SExp} {w : List STok} (h : assignToks a.1 .ASSIGN a.2 w) {M : Nat} (hM : w.length < M) {R : List STok} (hR : Sep R) :
    ∃ t, MVa A t a ∧ First None' (variableAssignment (env B M)) (w ++ R) t R := by
  obtain ⟨ht, u, _, rfl, hu, _, v, rfl, ⟨x, rfl, hx⟩, hv⟩ := h
  simp only [List.length_append, List.length_cons, List.length_nil] at hM
  obtain ⟨tl, hl, fl⟩ := lv_first (A := A) (B := B) ht hu (M := M) (by omega) (R := x :: (v ++ R)) (.of hx _ (by decide))
  obtain ⟨te, he, fe⟩ := exp_first (A := A) (B := B) hv (M := M) (by omega) hR
  refine ⟨(tl, te), ⟨hl, he⟩, ?_⟩
  simp only [List.append_assoc]
  exact First.bindH fl (First.bindH (First.tok hx _) (First.bindH fe (First.ret _ _)))

theorem decl_first {a : Ident × SExp} {w : List STok} (h : declToks a w) {M : Nat} (hM : w.length < M) {R : List STok} (hR : Sep R) :
    ∃ t, MDc A t a ∧ First None' (identifier >>= fun i => tok .ASSIGN >>= fun _ => (env B M).expression 0 >>= fun e => (pure (i, e) : P (Ident × Exp))) (w ++ R) t R := by
  obtain ⟨_, _, rfl, ⟨x, rfl, hx⟩, _, v, rfl, ⟨y, rfl, hy⟩, hv⟩ := h
  simp only [List.length_append, List.length_cons, List.length_nil] at hM
  obtain ⟨te, he, fe⟩ := exp_first (A := A) (B := B) hv (M := M) (by omega) hR
  refine ⟨(a.1, te), ⟨rfl, he⟩, ?_⟩
  simp only [List.append_assoc]
  exact First.bindH (identifier_first hx _) (First.bindH (First.tok hy _) (First.bindH fe (First.ret _ _)))

theorem atom_notPath (t : SAtom) : isPathTok t.ty = false := by cases t <;> rfl

theorem atom_first {t : SAtom} {x : STok} (hx : x.ty = t.ty) (hx2 : x.text = t.text) (R : List STok) : First None' integerAtomType (x :: R) t.text R := by
  refine First.of_eq ?_
  rw [integerAtomType, texts, alts_apply]
  cases t <;> simp [tok_cons, hx, SAtom.ty, ← hx2]

/-- `int a` is no target. -/
theorem atom_lvalue {t : SAtom} {x y : STok} {s : List STok} (hx : x.ty = t.ty) (hy : y.ty ≠ .APOSTROPHE_LBRACE) (M : Nat) : (env B M).lvalue (x :: y :: s) = [] := by
  cases M with
  | zero => rfl
  | succ M =>
    have ne : ∀ {t' : ST}, t.ty ≠ t' → tok t' (x :: y :: s) = [] := fun h => tok_neg (by rw [hx]; exact h) _
    have hp : path (env B M) (x :: y :: s) = [] := (path_no _).cons (by rw [hx, atom_notPath]; rfl)
    have h1 : tok .LBRACE (x :: y :: s) = [] := ne (by cases t <;> decide)
    have h2 : tok .APOSTROPHE_LBRACE (x :: y :: s) = [] := ne (by cases t <;> decide)
    have h3 : tok .KW_TYPE (x :: y :: s) = [] := ne (by cases t <;> decide)
    have h4 : hierSel (env B M) (x :: y :: s) = [] := bind_nil hp
    have h5 : streamingConcatenation (env B M) (x :: y :: s) = [] := bind_nil h1
    show (tok .LBRACE >>= fun _ => _) _ ++ ((hierSel (env B M) >>= fun _ => _) _ ++ ((opt (patternType (env B M)) >>= fun _ => _) _ ++
      (streamingConcatenation (env B M) >>= fun _ => _) _)) = []
    rw [bind_nil h1, bind_nil h4, bind_nil h5]
    simp only [List.nil_append, List.append_nil]
    refine List.eq_nil_iff_forall_not_mem.2 fun z hz => ?_
    obtain ⟨o, r, h6, h7⟩ := mem_bind.1 hz
    refine nil_mem h7 (bind_nil ?_)
    rcases mem_or.1 h6 with h6 | h6
    · obtain ⟨b, r', h8, h9⟩ := mem_bind.1 h6
      rw [mem_pure] at h9; cases h9
      obtain ⟨p, hp', h10⟩ := mem_alts.1 h8
      simp only [List.mem_cons, List.not_mem_nil, or_false] at hp'
      rcases hp' with rfl | rfl | rfl
      · exact (nil_mem h10 (bind_nil hp)).elim
      · obtain ⟨c, r2, h11, h12⟩ := mem_bind.1 h10
        rw [mem_pure] at h12; cases h12
        obtain ⟨q, hq, h13⟩ := mem_alts.1 h11
        obtain ⟨t', -, rfl⟩ := List.mem_map.1 hq
        obtain ⟨z', e, -⟩ := mem_tok.1 h13
        cases e
        exact tok_neg hy s
      · have h14 : typeReference (env B M) (x :: y :: s) = [] := bind_nil h3
        exact (nil_mem h10 (bind_nil h14)).elim
    · rw [mem_pure] at h6; cases h6; exact h2

theorem atomType_first {t : SAtom} {x y : STok} {s : List STok} (hx : x.ty = t.ty) (hx2 : x.text = t.text) (hy : isIdTok y.ty = true) {M : Nat} (hM : 0 < M) :
    First None' (env B M).dataType (x :: y :: s) (.prim (.atom t.text .none) []) (y :: s) := by
  obtain ⟨M, rfl⟩ : ∃ m, M = m + 1 := ⟨M - 1, by omega⟩
  have ne : ∀ {t' : ST}, t.ty ≠ t' → tok t' (x :: y :: s) = [] := fun h => tok_neg (by rw [hx]; exact h) _
  have k : ∀ {t' : ST}, isIdTok t' = false → y.ty ≠ t' := fun h h' => by rw [h', h] at hy; cases hy
  refine First.orN (bind_nil (ne (by cases t <;> decide))) (First.orN (bind_nil (ne (by cases t <;> decide))) (First.orN (bind_nil (ne (by cases t <;> decide)))
    (First.orN (bind_nil (ne (by cases t <;> decide))) (First.orL ?_))))
  refine First.bindH (a := DType.prim (.atom t.text .none)) (r1 := y :: s) ?_ (First.bindH (a := []) (First.of_eq (many_none (bind_nil (tok_neg (k rfl) s)))) (First.ret _ _))
  refine First.orL (First.map (f := DType.prim) ?_)
  refine First.orN (bind_nil ?_) (First.orL (First.bindH (atom_first hx hx2 _) ?_))
  · rw [integerVectorType, texts, alts_apply]
    cases t <;> simp [tok_cons, hx, SAtom.ty]
  · have hs : signing (y :: s) = [] := (NoAt.toks (N := isIdTok) (by decide)).cons hy
    exact First.bindH (a := Sign.none) (First.map (f := fun s : Option Sign => s.getD .none) (First.noneE hs)) (First.ret _ _)

variable (A Bs) in
structure MFi (t : Option ForInit) (s : SInit) : Prop where
  ev : evForInit A Bs t = s.eval A Bs
  ok : s.Ok → okForInit t

theorem forInit_no (B : Rules) (n : Nat) : NoAt (fun t => t == .SEMI) (forInitialization (env B n)) := by
  refine .or (.bind (.bind (.bind ((lvalue_noEnv B n).mono ?_)))) (.bind (.bind (flag_no rfl (.bind ((dataType_eNo B n).mono ?_)))))
  · intro t h; rw [beq_iff_eq] at h; subst h; rfl
  · intro t h; rw [beq_iff_eq] at h; subst h; rfl

theorem init_first {i : SInit} {w : List STok} (h : i.Toks w) {M : Nat} (hM : w.length < M) {s : STok} (hs : s.ty = .SEMI) (R : List STok) :
    ∃ t, MFi A Bs t i ∧ First None' (opt (forInitialization (env B M))) (w ++ s :: R) t (s :: R) := by
  have hE : tok .COMMA (s :: R) = [] := tok_neg (by rw [hs]; decide) R
  have hc : ∀ (z : STok) R, z.ty = .COMMA → CommaSemi (z :: R) := fun z R hz => ⟨z, R, rfl, .inl hz⟩
  cases i with
  | none =>
    rw [SInit.Toks, Spec.SvLrm.Empty] at h; subst h
    exact ⟨none, ⟨rfl, fun _ => trivial⟩, First.noneE ((forInit_no B M).cons (by rw [hs]; rfl))⟩
  | assign a l =>
    rw [SInit.Toks] at h
    obtain ⟨u, v, rfl, hu, hv⟩ := h
    obtain ⟨ts, ht, ft⟩ := commas_first (D := None') (p := variableAssignment (env B M)) (M := MVa A) (N := M) (Rst := CommaSemi)
      (fun a u R h hN hR => varAssign_first (A := A) (B := B) h hN hR.sep) hc (fun r h => h.elim) a l u v (s :: R) hu hv hM ⟨s, R, rfl, .inr hs⟩ hE
    refine ⟨some (.assigns ts), ⟨?_, ?_⟩, ?_⟩
    · rw [evForInit, SInit.eval]
      exact all2_map (fun a b h => by rw [evVarAssign, h.lv.ev, h.ex.ev]) ht
    · intro h
      exact all2_all (q := fun x : SPrim × SExp => x.1.Ok ∧ x.2.Ok) (fun a b h hb => ⟨h.lv.ok hb.1, h.ex.ok hb.2⟩) ht (by
        intro b hb
        rcases List.mem_cons.1 hb with rfl | hb
        · exact h.1
        · exact h.2 b hb)
    · rw [List.append_assoc]
      exact First.some (First.orL (First.map (f := ForInit.assigns) ft))
  | decl t a l =>
    rw [SInit.Toks] at h
    obtain ⟨_, _, rfl, ⟨x, rfl, hx, hx2⟩, u, v, rfl, hu, hv⟩ := h
    simp only [List.length_append, List.length_cons, List.length_nil] at hM
    obtain ⟨ts, ht, ft⟩ := commas_first (D := None') (p := identifier >>= fun i => tok .ASSIGN >>= fun _ => (env B M).expression 0 >>= fun e => (pure (i, e) : P (Ident × Exp)))
      (M := MDc A) (N := M) (Rst := CommaSemi)
      (fun a u R h hN hR => decl_first (A := A) (B := B) h hN hR.sep) hc (fun r h => h.elim) a l u v (s :: R) hu hv (by simp only [List.length_append]; omega) ⟨s, R, rfl, .inr hs⟩ hE
    have hy : ∃ y r, u ++ (v ++ s :: R) = y :: r ∧ isIdTok y.ty = true := by
      obtain ⟨_, _, rfl, ⟨y, rfl, hy⟩, -⟩ := hu
      exact ⟨y, _, rfl, ident_id hy⟩
    obtain ⟨y, r, e, hy⟩ := hy
    refine ⟨some (.decls [⟨false, .prim (.atom t.text .none) [], ts⟩]), ⟨?_, ?_⟩, ?_⟩
    · rw [evForInit, SInit.eval]
      simp only [List.flatMap_cons, List.flatMap_nil, List.append_nil, evForDecl]
      exact all2_map (fun a b h => by rw [h.ex.ev, h.id]; rfl) ht
    · intro h
      have hk : isKw t.text = true := by cases t <;> decide +kernel
      intro d hd
      simp only [List.mem_singleton] at hd
      subst hd
      refine ⟨⟨by simpa only [okDPrim] using hk, trivial⟩, ?_⟩
      exact all2_all (q := fun x : Ident × SExp => okIdent x.1 ∧ x.2.Ok) (fun a b h hb => ⟨by rw [h.id]; exact hb.1, h.ex.ok hb.2⟩) ht (by
        intro b hb
        rcases List.mem_cons.1 hb with rfl | hb
        · exact h.1
        · exact h.2 b hb)
    · simp only [List.append_assoc, List.cons_append, List.nil_append]
      rw [e] at ft ⊢
      have h1 : variableAssignment (env B M) (x :: y :: r) = [] := bind_nil (atom_lvalue hx (by intro h; rw [h] at hy; cases hy) M)
      refine First.some (First.orN (bind_nil (bind_nil h1)) (First.map (f := ForInit.decls) ?_))
      refine First.bindH (a := ⟨false, .prim (.atom t.text .none) [], ts⟩) (r1 := s :: R) ?_ (First.bindH (a := []) (First.of_eq (many_none (bind_nil hE))) (First.ret _ _))
      refine First.bindH (a := false) (First.of_eq (flag_none (tok_neg (by rw [hx]; cases t <;> decide) _))) ?_
      exact First.bindH (atomType_first hx hx2 hy (by omega)) (First.bindH ft (First.ret _ _))

/-! ## The steps -/

/-- `++` and `--` stop. -/
def incS : ST → Bool := fun t => t == .INCR || t == .DECR
theorem cfg_inc : Cfg incS anyG where
  opens t h := by
    intro d q _
    cases t <;> simp_all [isOpen, scan1, isSpecial, incS]
  neutral t h := by
    simp only [isNeutral, Bool.and_eq_true, Bool.not_eq_true', bne_iff_ne, ne_eq] at h
    intro d q _
    have : incS t = false := by simp [incS, h.1.2, h.2]
    simp only [scan1, h.1.1.1.1.1, h.1.1.1.1.2, this, h.1.1.1.2, h.1.1.2]
    cases isSpecial t <;> simp
  quest d q _ := by
    by_cases h : d = 0
    · subst h
      exact ⟨0, q + 1, trivial, by simp [scan1, isSpecial, isOpen, isClose, incS], by simp [scan1, isSpecial, isOpen, isClose, incS]⟩
    · exact ⟨d, q, trivial, by simp [scan1, isSpecial, isOpen, isClose, h], by simp [scan1, isSpecial, isOpen, isClose, h]⟩

/-- The step of a `for` does not end here. -/
def NoStep (R : List STok) : Prop := ∀ y s, R = y :: s → y.ty ≠ .COMMA ∧ y.ty ≠ .RPAREN

theorem inc_lvS {t : ST} (h : incS t = true) : lvS t = true := by
  simp only [incS, Bool.or_eq_true, beq_iff_eq] at h
  rcases h with rfl | rfl <;> rfl

theorem lv_opPrec {t : ST} (h : lvStop t = false) : opPrec t = 0 := by cases t <;> first | rfl | cases h

/-- Where a primary of a text with `++` can end. -/
theorem primary_inc {w R : List STok} {o : STok} {inc : Bool} (hw : LvText w) (ho : o.ty = incDecTy inc) (M : Nat) :
    ∀ x ∈ primary B (env B M) (w ++ o :: R), ∀ y s, x.2 = y :: s → opPrec y.ty = 0 ∧ y.ty ≠ .COMMA ∧ y.ty ≠ .RPAREN := by
  rintro x hx y s e
  obtain ⟨u, e1, hu⟩ := primary_keep (brk_env B incS M) B cfg_inc _ _ hx
  rw [e] at e1
  by_cases hy : lvStop y.ty = true
  · have := cut (fun _ h => inc_lvS h) hw (hu 0 0 trivial) e1 (by rw [ho]; cases inc <;> rfl) (lvStop_none hy)
    have := (List.cons.inj this).1
    subst this
    rw [ho]; cases inc <;> decide
  · refine ⟨lv_opPrec (by simpa using hy), ?_, ?_⟩
    · intro h; rw [h] at hy; exact hy rfl
    · intro h; rw [h] at hy; exact hy rfl

theorem primary_incNo (B : Rules) (E : Env) : NoAt incS (primary B E) := by
  have hp : NoAt incS (path E) := (path_no _).mono fun t h => by cases t <;> first | rfl | cases h
  refine .bind ?_
  noat_alts
  refine ⟨.bind (literal_no.mono fun t h => by cases t <;> first | rfl | cases h), .bind hp, .bind (.tok rfl), .bind ?_, .bind (.bind (.tok rfl)), .bind (.bind (.tok rfl)),
    .bind (.texts (by decide)), .optBind (.bind (.tok rfl)) (.bind (.bind (.tok rfl))), .bind (.optBind ?_ (.bind (.bind (.tok rfl)))),
    .bind (.bind (.tok rfl)), by simp⟩
  · noat_alts
    exact ⟨.bind (.tok rfl), .bind (.tok rfl), .bind (.or (.texts (by decide)) (.texts (by decide))), .bind (.texts (by decide)),
      .bind (.toks (by decide)), by simp⟩
  · noat_alts
    exact ⟨.bind hp, .bind (.texts (by decide)), .bind (.bind (.tok rfl)), by simp⟩

theorem incDec_inc (inc : Bool) : incS (incDecTy inc) = true := by cases inc <;> rfl

/-- `++ l` and `l ++` as expressions. -/
theorem incDecE_first {pre inc : Bool} {l : SPrim} {w : List STok} (h : incDecToks pre inc l w) {M : Nat} (hM : w.length < M) {R : List STok} (hR : Sep R) :
    ∃ tl, MLv A tl l ∧ First NoStep ((env B M).expression 0) (w ++ R) (.incDec pre inc tl) R := by
  obtain ⟨ht, h⟩ := h
  have hends : ∀ a, expressionStep (env B (M - 1)) 0 a R = [] := by
    intro a
    obtain ⟨y, s, rfl, -, hy⟩ := hR
    exact expressionStep_nil fun _ _ e => by cases e; exact .inl hy
  cases pre with
  | true =>
    simp only [if_true] at h
    obtain ⟨_, u, rfl, ⟨x, rfl, hx⟩, hu⟩ := h
    simp only [List.length_append, List.length_cons, List.length_nil] at hM
    obtain ⟨M, rfl⟩ : ∃ m, M = m + 1 := ⟨M - 1, by omega⟩
    simp only [Nat.add_sub_cancel] at hends
    have hloop : ∀ a, loop (expressionStep (env B M) 0) a R = [(a, R)] := fun a => loopN_stop (hends a) _
    have hE : LvEnd R := by
      obtain ⟨y, s, rfl, hy, -⟩ := hR
      intro _ _ e; cases e
      refine ⟨?_, ?_, ?_, ?_⟩ <;> · intro h; rw [h] at hy; cases hy
    obtain ⟨tl, hl, fl⟩ := lv_first (A := A) (B := B) ht hu (M := M) (by omega) (R := R) hE
    refine ⟨tl, hl, ?_⟩
    simp only [List.cons_append, List.nil_append]
    have ne : ∀ {t : ST}, incS t = false → tok t (x :: (u ++ R)) = [] := fun h => tok_neg (by rw [hx]; intro h'; rw [← h', incDec_inc] at h; cases h) _
    have hatt : attributes (env B M) (u ++ R) = [([], u ++ R)] := by
      obtain ⟨y, v, rfl, hy⟩ := target_head ht hu
      refine attributes_ne ?_
      intro hp; rw [hp] at hy; revert hy; decide
    refine First.bindH (a := .incDec true inc tl) (r1 := R) ?_ (First.of_eq (hloop _))
    refine First.orN (bind_nil ((primary_incNo B _).cons (by rw [hx]; exact incDec_inc inc))) (First.orN (bind_nil (ne rfl)) (First.orN (bind_nil (ne rfl))
      (First.orN (bind_nil ((NoAt.toks (N := incS) (by decide)).cons (by rw [hx]; exact incDec_inc inc))) (First.orL ?_))))
    exact First.bindH (incDec_first hx _) (First.bindH (a := []) (First.of_eq hatt) (First.bindH fl (First.ret _ _)))
  | false =>
    simp only [Bool.false_eq_true, if_false] at h
    obtain ⟨u, _, rfl, hu, ⟨x, rfl, hx⟩⟩ := h
    simp only [List.length_append, List.length_cons, List.length_nil] at hM
    obtain ⟨M, rfl⟩ : ∃ m, M = m + 1 := ⟨M - 1, by omega⟩
    simp only [Nat.add_sub_cancel] at hends
    have hloop : ∀ a, loop (expressionStep (env B M) 0) a R = [(a, R)] := fun a => loopN_stop (hends a) _
    obtain ⟨tl, hl, fl⟩ := lv_first (A := A) (B := B) ht hu (M := M) (by omega) (R := x :: R) (.of hx _ (by cases inc <;> decide))
    refine ⟨tl, hl, ?_⟩
    simp only [List.append_assoc, List.cons_append, List.nil_append]
    have ne : ∀ {t : ST}, isIdTok t = false → t ≠ .LBRACE → tok t (u ++ x :: R) = [] := fun h1 h2 => tok_ne (target_ne ht hu h1 h2 _)
    refine First.bind (D' := fun r => ∀ y s, r = y :: s → opPrec y.ty = 0 ∧ y.ty ≠ .COMMA ∧ y.ty ≠ .RPAREN) (a := .incDec false inc tl) (r1 := R) ?_
      (First.of_eq (hloop _)) ?_
    · refine First.orR ?_ (First.orN (bind_nil (ne rfl (by decide))) (First.orN (bind_nil (ne rfl (by decide)))
        (First.orN (bind_nil (target_no ht hu (N := fun t => !isUnTok t) (.toks (by decide)) ?_ _)) (First.orN (bind_nil
          (target_no ht hu (q := incOrDecOperator) (N := fun t => !incS t) (.toks (by decide)) ?_ _)) ?_))))
      · rintro z hz
        obtain ⟨a, r, h1, h2⟩ := mem_bind.1 hz
        rw [mem_pure] at h2; subst h2
        exact primary_inc (target_lv ht hu) hx M _ h1
      · rintro t (h | rfl)
        · cases t <;> first | rfl | cases h
        · rfl
      · rintro t (h | rfl)
        · cases t <;> first | rfl | cases h
        · rfl
      · exact First.bindH fl (First.bindH (First.of_eq (attributes_ne (by rw [hx]; cases inc <;> decide))) (First.bindH (incDec_first hx _) (First.ret _ _)))
    · intro c r hr z hz
      have : expressionStep (env B M) 0 c r = [] := expressionStep_nil fun y s e => .inl (hr y s e).1
      have hz2 : z ∈ loopN (expressionStep (env B M) 0) r.length c r := hz
      rw [loopN_stop this] at hz2
      simp only [List.mem_singleton] at hz2
      subst hz2
      exact fun y s e => (hr y s e).2

variable (A Bs) in
structure MSt (t : MatchItem) (s : SStep) : Prop where
  ev : evMatchItem A Bs t = s.eval A Bs
  ok : s.Ok → okMatchItem t

/-- `,` or `)` -/
def CommaPar (R : List STok) : Prop := ∃ y s, R = y :: s ∧ (y.ty = .COMMA ∨ y.ty = .RPAREN)
theorem CommaPar.sep {R : List STok} (h : CommaPar R) : Sep R := by
  obtain ⟨y, s, rfl, h | h⟩ := h
  · exact .of h _ rfl rfl
  · exact .of h _ rfl rfl

theorem opAssign_nil {w R : List STok} {o : STok} (hw : LvText w) (ho : lvStop o.ty = true) (ha : ∀ a, o.ty ≠ AssignOp.ty a) (M : Nat) :
    operatorAssignment (env B M) (w ++ o :: R) = [] := by
  refine lv_seq (lv_env B M) hw ho (fun _ => .bind (assignOp_no fun o => by simp [assignTy_stop])) fun _ => bind_nil ?_
  refine (assignOp_no (N := fun t => t == o.ty) fun a => ?_).cons (by simp)
  simp only [beq_eq_false_iff_ne]; exact fun h => ha a h.symm

theorem step_first {a : SStep} {w : List STok} (h : a.Toks w) {M : Nat} (hM : w.length < M) {R : List STok} (hR : CommaPar R) :
    ∃ t, MSt A Bs t a ∧ First NoStep (sequenceMatchItem (env B M)) (w ++ R) t R := by
  cases a with
  | assign l o e =>
    rw [SStep.Toks] at h
    obtain ⟨tl, te, hl, he, f⟩ := opAssign_first (A := A) (B := B) h hM hR.sep
    refine ⟨.assign ⟨tl, o, te⟩, ⟨?_, ?_⟩, (First.orL (First.map (f := MatchItem.assign) f)).weak⟩
    · rw [evMatchItem, evOpAssign, SStep.eval, assignEval]; simp only [hl.ev, he.ev]
    · intro h; exact ⟨hl.ok h.1, he.ok h.2⟩
  | incDec pre inc l =>
    rw [SStep.Toks] at h
    obtain ⟨tl, hl, f⟩ := incDecE_first (A := A) (B := B) h (M := M) hM hR.sep
    refine ⟨.expr (.incDec pre inc tl), ⟨?_, ?_⟩, First.orN (bind_nil ?_) (First.map (f := MatchItem.expr) f)⟩
    · rw [evMatchItem, SStep.eval, evExp, hl.ev]
    · intro h; exact hl.ok h
    · obtain ⟨ht, h⟩ := h
      cases pre with
      | true =>
        simp only [if_true] at h
        obtain ⟨_, u, rfl, ⟨x, rfl, hx⟩, hu⟩ := h
        exact bind_nil ((lvalue_noEnv B M).cons (by rw [hx]; cases inc <;> rfl))
      | false =>
        simp only [Bool.false_eq_true, if_false] at h
        obtain ⟨u, _, rfl, hu, ⟨x, rfl, hx⟩⟩ := h
        rw [List.append_assoc]
        exact opAssign_nil (target_lv ht hu) (by rw [hx]; exact incDec_stop inc) (by rw [hx]; exact incDec_op inc) M

theorem steps_first {l : List SStep} {w : List STok} (h : stepsToks l w) {M : Nat} (hM : w.length < M) {s : STok} (hs : s.ty = .RPAREN) (R : List STok) :
    ∃ t : Option (List MatchItem), ((t.getD []).map (evMatchItem A Bs) = l.map (SStep.eval A Bs) ∧ ((∀ x ∈ l, x.Ok) → ∀ i ∈ t.getD [], okMatchItem i)) ∧
    First NoStep (opt (sepBy .COMMA (sequenceMatchItem (env B M)))) (w ++ s :: R) t (s :: R) := by
  cases l with
  | nil =>
    rw [stepsToks, Spec.SvLrm.Empty] at h; subst h
    refine ⟨none, ⟨rfl, by simp⟩, First.noneE (bind_nil ?_)⟩
    have h1 : operatorAssignment (env B M) (s :: R) = [] := bind_nil ((lvalue_noEnv B M).cons (by rw [hs]; rfl))
    have h2 : (env B M).expression 0 (s :: R) = [] := (expression_eNo B M 0).cons (by rw [hs]; rfl)
    show (operatorAssignment (env B M) >>= fun _ => _) _ ++ ((env B M).expression 0 >>= fun _ => _) _ = []
    rw [List.nil_append, bind_nil h1, bind_nil h2]; rfl
  | cons a l =>
    rw [stepsToks] at h
    obtain ⟨u, v, rfl, hu, hv⟩ := h
    obtain ⟨ts, ht, ft⟩ := commas_first (D := NoStep) (p := sequenceMatchItem (env B M)) (M := MSt A Bs) (N := M) (Rst := CommaPar)
      (fun a u R h hN hR => step_first (A := A) (Bs := Bs) (B := B) h hN hR) (fun z R hz => ⟨z, R, rfl, .inl hz⟩) (fun r h => tok_ne fun y s e => (h y s e).1) a l u v (s :: R) hu hv hM
      ⟨s, R, rfl, .inr hs⟩ (tok_neg (by rw [hs]; decide) R)
    refine ⟨some ts, ⟨all2_map (fun a b h => h.ev) ht, all2_all (fun a b h => h.ok) ht⟩, ?_⟩
    rw [List.append_assoc]
    exact First.some ft

end Verif.Sv
