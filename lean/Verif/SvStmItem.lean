import Verif.SvStmSimple
/-!
# The parse of simple SystemVerilog statements: assignments and calls
-/
namespace Verif.Sv
open P Verif.Spec.SvLrm Verif.Spec.Sv

variable {V S : Type} {A : Alg V} {Bs : SAlg V S} {B : Rules}

variable (A Bs) in
/-- A tree of a statement means the same as the text. -/
structure MI (t : StmItem) (s : SStm) : Prop where
  ev : evItem A Bs t = s.eval A Bs
  ok : s.Ok → okItem t
  isIf : ∀ i, labelledIf (.stm (.mk (some i) t)) = s.isIf
  named : labelledBlock (.stm (.mk none t)) = s.named
  block : ∀ i, labelledBlock (.stm (.mk (some i) t)) = s.isBlock
  fork : isFork t = s.isFork
  tim : ∀ c b, t = .timing c b → s.isTiming = true

/-! ## Where the rules begin -/

/-- Tokens at the beginning of a target. -/
def lvHead (t : ST) : Bool := isPathTok t || match t with
  | .KW_BYTE | .KW_SHORTINT | .KW_INT | .KW_LONGINT | .KW_INTEGER | .KW_TIME | .KW_TYPE | .LBRACE | .APOSTROPHE_LBRACE => true
  | _ => false

theorem lvalue_no (E : Env) : NoAt (fun t => !lvHead t) (lvalue E) := by
  have hp : NoAt (fun t => !lvHead t) (path E) := (path_no E).mono fun t h => by
    simp only [lvHead, Bool.not_eq_true', Bool.or_eq_false_iff] at h; simp [h.1]
  noat_alts
  refine ⟨.bind (.tok rfl), .bind (.bind hp), .optBind ?_ (.bind (.tok rfl)), .bind (.bind (.tok rfl)), by simp⟩
  noat_alts
  exact ⟨.bind hp, .bind (.texts (by decide)), .bind (.bind (.tok rfl)), by simp⟩

theorem lvalue_noEnv (B : Rules) (n : Nat) : NoAt (fun t => !lvHead t) (env B n).lvalue := by
  cases n with
  | zero => exact .fail
  | succ n => exact lvalue_no _

theorem hierSel_no (E : Env) : NoAt (fun t => !lvHead t) (hierSel E) := .bind ((path_no E).mono fun t h => by
    simp only [lvHead, Bool.not_eq_true', Bool.or_eq_false_iff] at h; simp [h.1])

theorem hierId_no (E : Env) : NoAt (fun t => !isPathTok t) (hierarchicalIdentifier E) := by
  have hi : NoAt (fun t => !isPathTok t) identifier := identifier_no.mono fun t h => by
    simp only [isPathTok, Bool.not_eq_true', Bool.or_eq_false_iff] at h; simp [h.1]
  exact .optBind (.bind (.tok rfl)) (.manyBind (.bind (.bind hi)) (.bind hi))

/-- Tokens at the beginning of `++ a`, and of an assignment with a keyword. -/
def sHead (t : ST) : Bool := lvHead t || match t with
  | .INCR | .DECR | .KW_ASSIGN | .KW_DEASSIGN | .KW_FORCE | .KW_RELEASE => true
  | _ => false

theorem sHead_lv {t : ST} (h : (!sHead t) = true) : (!lvHead t) = true := by
  simp only [sHead, Bool.not_eq_true', Bool.or_eq_false_iff] at h; simp [h.1]
theorem sHead_path {t : ST} (h : (!sHead t) = true) : (!isPathTok t) = true := by
  simp only [sHead, lvHead, Bool.not_eq_true', Bool.or_eq_false_iff] at h; simp [h.1.1]

/-- The alternatives of `simpleItem` but the primary. -/
theorem blocking_no (B : Rules) (n : Nat) : NoAt (fun t => !lvHead t) (blockingAssignment (env B n)) := by
  noat_alts
  exact ⟨.bind (lvalue_noEnv B n), .bind (hierSel_no _), .bind (.bind (lvalue_noEnv B n)), by simp⟩
theorem nonblocking_no (B : Rules) (n : Nat) : NoAt (fun t => !lvHead t) (nonblockingAssignment (env B n)) := .bind (lvalue_noEnv B n)
/-- Tokens of the assignments with a keyword. -/
def pcHead : ST → Bool
  | .KW_ASSIGN | .KW_DEASSIGN | .KW_FORCE | .KW_RELEASE => true
  | _ => false
theorem procCont_no (E : Env) : NoAt (fun t => !pcHead t) (proceduralContinuousAssignment E) := by
  noat_alts
  exact ⟨.bind (.tok rfl), .bind (.tok rfl), .bind (.tok rfl), .bind (.tok rfl), by simp⟩
theorem incDec_no (B : Rules) (n : Nat) : NoAt (fun t => !sHead t) (incOrDecItem (env B n)) :=
  .or (.bind (.toks (by decide))) (.bind ((lvalue_noEnv B n).mono fun _ => sHead_lv))
theorem clocking_no (E : Env) : NoAt (fun t => !isPathTok t) (clockingDrive E) := .bind (hierId_no E)

/-- No simple statement begins with these. -/
def simpleNo (t : ST) : Bool := pNo t && !sHead t

theorem simple_no (B : Rules) (n : Nat) : NoAt simpleNo (simpleItem B (env B n)) := by
  have h1 : ∀ t, simpleNo t = true → (!sHead t) = true := fun t h => by simp only [simpleNo, Bool.and_eq_true] at h; exact h.2
  refine .bind ?_
  noat_alts
  refine ⟨(blocking_no B n).mono fun t h => sHead_lv (h1 t h), (nonblocking_no B n).mono fun t h => sHead_lv (h1 t h), .bind ((procCont_no _).mono fun t h => ?_),
    (incDec_no B n).mono h1, .bind ((primary_pNo B _).mono fun t h => ?_), .bind ((clocking_no _).mono fun t h => sHead_path (h1 t h)), by simp⟩
  · have := h1 t h
    cases t <;> first | rfl | (exact this)
  · simp only [simpleNo, Bool.and_eq_true] at h; exact h.1

/-! ## Alternatives which are not taken -/

theorem delayOrEvent_no (E : Env) : NoAt (fun t => !eNo t) (delayOrEvent E) :=
  .or (.bind (.bind (.tok rfl))) (.optBind (.bind (.tok rfl)) (.bind (.bind (.tok rfl))))

theorem assignOp_no {N : ST → Bool} (h : ∀ o, N (AssignOp.ty o) = false) : NoAt N assignOp := by
  refine .toks ?_
  simp only [List.forall_mem_cons]
  exact ⟨h .assign, h .plus, h .minus, h .mul, h .div, h .mod, h .and, h .or, h .xor, h .shl, h .shr, h .ashl, h .ashr, by simp⟩

theorem assignOp_first {o : AssignOp} {x : STok} (h : x.ty = AssignOp.ty o) (R : List STok) : First None' assignOp (x :: R) o R := by
  refine First.of_eq (toks_one ?_ R)
  rw [h]; cases o <;> rfl

theorem assignTy_stop (o : AssignOp) : lvStop (AssignOp.ty o) = true := by cases o <;> rfl

/-- Nothing is assigned with `=`. -/
theorem blocking_nil {w R : List STok} {o : STok} (hw : LvText w) (ho : lvStop o.ty = true) (ha : ∀ a, o.ty ≠ AssignOp.ty a) (M : Nat) :
    blockingAssignment (env B M) (w ++ o :: R) = [] := by
  have h0 : tok .ASSIGN (o :: R) = [] := tok_neg (ha .assign) R
  have h1 : timedBlocking (env B M) (w ++ o :: R) = [] := lv_seq (lv_env B M) hw ho (fun _ => .bind (.tok rfl)) fun _ => bind_nil h0
  have h2 : (hierSel (env B M) >>= fun _ => tok .ASSIGN >>= fun _ => classNew (env B M) >>= fun _ => (pure StmItem.classNew : P StmItem)) (w ++ o :: R) = [] :=
    lv_seq (hs_env B M) hw ho (fun _ => .bind (.tok rfl)) fun _ => bind_nil h0
  have h3 : operatorAssignment (env B M) (w ++ o :: R) = [] := by
    refine lv_seq (lv_env B M) hw ho (fun _ => .bind (assignOp_no fun o => by simp [assignTy_stop])) fun _ => bind_nil ?_
    refine (assignOp_no (N := fun t => t == o.ty) fun a => ?_).cons (by simp)
    simp only [beq_eq_false_iff_ne]; exact fun h => ha a h.symm
  show timedBlocking (env B M) _ ++ ((hierSel (env B M) >>= fun _ => tok .ASSIGN >>= fun _ => classNew (env B M) >>= fun _ =>
    (pure StmItem.classNew : P StmItem)) _ ++ (operatorAssignment (env B M) >>= fun a => _) _) = []
  rw [h1, h2, bind_nil h3]; rfl

theorem nonblocking_nil {w R : List STok} {o : STok} (hw : LvText w) (ho : lvStop o.ty = true) (ha : o.ty ≠ .LE) (M : Nat) :
    nonblockingAssignment (env B M) (w ++ o :: R) = [] :=
  lv_seq (lv_env B M) hw ho (fun _ => .bind (.tok rfl)) fun _ => bind_nil (tok_neg ha R)

theorem tcfg_semi : TCfg semiS anyG where
  tok t h := by
    intro d q _
    have h1 : isOpen t = false := by cases t <;> simp_all [isTypeTok, isOpen]
    have h2 : isClose t = false := by cases t <;> simp_all [isTypeTok, isClose]
    have h3 : t ≠ .QUESTIONMARK := by rintro rfl; cases h
    have h4 : t ≠ .COLON := by rintro rfl; cases h
    have h5 : t ≠ .SEMI := by rintro rfl; cases h
    have h6 : t ≠ .KW_NEW := by rintro rfl; cases h
    simp only [scan1, h1, h2, semiS, h3, h4]
    cases isSpecial t <;> simp [h5, h6]
  sq := by intro d q _; simp [scan1, isSpecial, semiS, isOpen]

theorem classScope_keep {S : ST → Bool} {G : Nat → Nat → Prop} {E : Env} (hE : Brk S E) (hT : TCfg S G) : Snd (Keep S G) (classScope E) := by
  have hi := identifier_keep hT
  have hd : Snd (Keep S G) (tok .DOUBLE_COLON) := tok_keep (hT.tok _ rfl)
  refine bind_keep (bind_keep (opt_keep (bind_keep (Snd.or (map_keep (tok_keep (hT.tok _ rfl)) _) (map_keep hi _)) fun _ => bind_keep hd fun _ => ret_keep _)) fun _ =>
    map_keep hi _) fun _ => bind_keep (pvaOpt_keep hE) fun _ => bind_keep (many_keep (bind_keep hd fun _ => bind_keep hi fun _ => pvaOpt_keep hE)) fun _ =>
    bind_keep hd fun _ => ret_keep _

/-- An expression is no `new`. -/
theorem classNew_nil {e : SExp} {w R : List STok} {o : STok} (h : e.Toks w) (ho : o.ty = .SEMI) (M : Nat) : classNew (env B M) (w ++ o :: R) = [] := by
  have h0 : tok .KW_NEW (w ++ o :: R) = [] := tok_ne (exp_ne h rfl _)
  have h1 : ∀ x ∈ opt (classScope (env B M)) (w ++ o :: R), tok .KW_NEW x.2 = [] := by
    rintro ⟨a, r⟩ hx
    rcases mem_or.1 hx with hx | hx
    · obtain ⟨b, r', h2, h3⟩ := mem_bind.1 hx
      rw [mem_pure] at h3; cases h3
      refine tok_ne ?_
      rintro y s rfl hy
      obtain ⟨u, e1, hu⟩ := classScope_keep (brk_env B semiS M) tcfg_semi _ _ h2
      have := cut (fun _ h => h) (exp_ex xcfg_semi e w h 0 0 trivial) (hu 0 0 trivial) e1 (by rw [ho]; rfl) (by rw [hy]; rfl)
      have := (List.cons.inj this).1
      subst this
      rw [hy] at ho; cases ho
    · rw [mem_pure] at hx; cases hx; exact h0
  show (tok .KW_NEW >>= fun _ => _) _ ++ (opt (classScope (env B M)) >>= fun _ => _) _ = []
  rw [bind_nil h0, bind_apply, List.nil_append]
  rw [List.flatMap_eq_nil_iff]
  rintro x hx
  exact bind_nil (h1 x hx)

/-! ## Assignments -/

theorem lvEnd_op {o : AssignOp} {x : STok} (h : x.ty = AssignOp.ty o) (s : List STok) : LvEnd (x :: s) :=
  .of h s (by cases o <;> decide)

/-- `l op e` -/
theorem opAssign_first {l : SPrim} {o : AssignOp} {e : SExp} {w : List STok} (h : assignToks l (AssignOp.ty o) e w) {M : Nat} (hM : w.length < M)
    {R : List STok} (hR : Sep R) : ∃ tl te, MLv A tl l ∧ ME A te e ∧ First None' (operatorAssignment (env B M)) (w ++ R) ⟨tl, o, te⟩ R := by
  obtain ⟨ht, u, _, rfl, hu, _, v, rfl, ⟨x, rfl, hx⟩, hv⟩ := h
  simp only [List.length_append, List.length_cons, List.length_nil] at hM
  obtain ⟨tl, hl, fl⟩ := lv_first (A := A) (B := B) ht hu (M := M) (by omega) (R := x :: (v ++ R)) (lvEnd_op hx _)
  obtain ⟨te, he, fe⟩ := exp_first (A := A) (B := B) hv (M := M) (by omega) hR
  refine ⟨tl, te, hl, he, ?_⟩
  simp only [List.append_assoc]
  exact First.bindH fl (First.bindH (assignOp_first hx _) (First.bindH fe (First.ret _ _)))

theorem timed_nil {l : SPrim} {o : AssignOp} {e : SExp} {w : List STok} (h : assignToks l (AssignOp.ty o) e w) (M : Nat) (R : List STok) :
    timedBlocking (env B M) (w ++ R) = [] := by
  obtain ⟨ht, u, _, rfl, hu, _, v, rfl, ⟨x, rfl, hx⟩, hv⟩ := h
  simp only [List.append_assoc]
  refine lv_seq (lv_env B M) (target_lv ht hu) (by rw [hx]; exact assignTy_stop o) (fun _ => .bind (.tok rfl)) fun _ => ?_
  by_cases hy : x.ty = .ASSIGN
  · rw [bind_apply, tok_pos hy]
    simp only [List.flatMap_cons, List.flatMap_nil, List.append_nil]
    exact exp_no (.or (.bind (delayOrEvent_no _)) (.bind (.bind (.tok rfl)))) hv R
  · exact bind_nil (tok_neg hy _)

theorem class_nil {l : SPrim} {o : AssignOp} {e : SExp} {w : List STok} (h : assignToks l (AssignOp.ty o) e w) (M : Nat) {s : STok} (hs : s.ty = .SEMI)
    (R : List STok) : (hierSel (env B M) >>= fun _ => tok .ASSIGN >>= fun _ => classNew (env B M) >>= fun _ => (pure StmItem.classNew : P StmItem)) (w ++ s :: R) = [] := by
  obtain ⟨ht, u, _, rfl, hu, _, v, rfl, ⟨x, rfl, hx⟩, hv⟩ := h
  simp only [List.append_assoc]
  refine lv_seq (hs_env B M) (target_lv ht hu) (by rw [hx]; exact assignTy_stop o) (fun _ => .bind (.tok rfl)) fun _ => ?_
  by_cases hy : x.ty = .ASSIGN
  · rw [bind_apply, tok_pos hy]
    simp only [List.flatMap_cons, List.flatMap_nil, List.append_nil]
    exact bind_nil (classNew_nil hv hs M)
  · exact bind_nil (tok_neg hy _)

theorem simple_semi {t : StmItem} {w R : List STok} {s : STok} (hs : s.ty = .SEMI) {p : P StmItem} (h : First None' p (w ++ s :: R) t (s :: R)) :
    First None' (p >>= fun x => tok .SEMI >>= fun _ => pure x) (w ++ s :: R) t R := First.bindH h (First.bindH (First.tok hs R) (First.ret _ _))

theorem assign_item {l : SPrim} {o : AssignOp} {e : SExp} {w : List STok} (h : (SStm.assign l o e).Toks w) {M : Nat} (hM : w.length ≤ M) (R : List STok) :
    ∃ t, MI A Bs t (.assign l o e) ∧ First None' (simpleItem B (env B M)) (w ++ R) t R := by
  rw [SStm.Toks] at h
  obtain ⟨u, _, rfl, hu, ⟨s, rfl, hs⟩⟩ := h
  simp only [List.length_append, List.length_cons, List.length_nil] at hM
  obtain ⟨tl, te, hl, he, f⟩ := opAssign_first (A := A) (B := B) hu (M := M) (by omega) (R := s :: R) (.of hs _ rfl rfl)
  refine ⟨.opAssign ⟨tl, o, te⟩, ⟨?_, ?_, fun _ => rfl, rfl, fun _ => rfl, rfl, fun _ _ e => by first | rfl | cases e⟩, ?_⟩
  · rw [evItem, evOpAssign, SStm.eval, assignEval]; simp only [hl.ev, he.ev]
  · intro h; rw [SStm.Ok] at h; exact ⟨hl.ok h.1, he.ok h.2⟩
  · rw [List.append_assoc]
    refine First.bindH (First.orL (First.orN (timed_nil hu M _) (First.orN (class_nil hu M hs R) (First.map (f := StmItem.opAssign) f)))) 
      (First.bindH (First.tok hs R) (First.ret _ _))

theorem tEnd_exp {e : SExp} {w : List STok} (h : e.Toks w) (b : Bool) (R : List STok) : TEnd b (w ++ R) :=
  ⟨exp_ne h rfl R, fun _ y s e => ⟨exp_ne h rfl R y s e, exp_ne h rfl R y s e, exp_ne h rfl R y s e, exp_ne h rfl R y s e⟩⟩

theorem timed_item {l : SPrim} {t : STiming} {e : SExp} {w : List STok} (h : (SStm.timed l t e).Toks w) {M : Nat} (hM : w.length ≤ M) (R : List STok) :
    ∃ i, MI A Bs i (.timed l t e) ∧ First None' (simpleItem B (env B M)) (w ++ R) i R := by
  rw [SStm.Toks] at h
  obtain ⟨hl, u, _, rfl, hu, _, _, rfl, ⟨x, rfl, hx⟩, v, _, rfl, hv, z, _, rfl, hz, ⟨s, rfl, hs⟩⟩ := h
  simp only [List.length_append, List.length_cons, List.length_nil] at hM
  obtain ⟨tl, hl, fl⟩ := lv_first (A := A) (B := B) hl hu (M := M) (by omega) (R := x :: (v ++ (z ++ s :: R))) (.of hx _ (by decide))
  obtain ⟨td, hd, fd⟩ := delayOrEvent_first (A := A) (B := B) (Bs := Bs) hv (M := M) (by omega) (R := z ++ s :: R) (tEnd_exp hz _ _)
  obtain ⟨te, he, fe⟩ := exp_first (A := A) (B := B) hz (M := M) (by omega) (R := s :: R) (.of hs _ rfl rfl)
  refine ⟨.blocking tl td te, ⟨?_, ?_, fun _ => rfl, rfl, fun _ => rfl, rfl, fun _ _ e => by first | rfl | cases e⟩, ?_⟩
  · rw [evItem, SStm.eval, hl.ev, he.ev, hd.ev]
  · intro h; rw [SStm.Ok] at h; exact ⟨hl.ok h.1, he.ok h.2.2, hd.ok h.2.1⟩
  · simp only [List.append_assoc]
    refine First.bindH (First.orL (First.orL ?_)) (First.bindH (First.tok hs R) (First.ret _ _))
    exact First.bindH fl (First.bindH (First.tok hx _) (First.orL (First.bindH fd (First.bindH fe (First.ret _ _)))))

theorem le_op (a : AssignOp) : ST.LE ≠ AssignOp.ty a := by cases a <;> decide

theorem nonblocking_item {l : SPrim} {t : Option STiming} {e : SExp} {w : List STok} (h : (SStm.nonblocking l t e).Toks w) {M : Nat} (hM : w.length ≤ M) (R : List STok) :
    ∃ i, MI A Bs i (.nonblocking l t e) ∧ First None' (simpleItem B (env B M)) (w ++ R) i R := by
  cases t with
  | none =>
    rw [SStm.Toks] at h
    obtain ⟨_, _, rfl, ⟨ht, u, _, rfl, hu, _, v, rfl, ⟨x, rfl, hx⟩, hv⟩, ⟨s, rfl, hs⟩⟩ := h
    simp only [List.length_append, List.length_cons, List.length_nil] at hM
    obtain ⟨tl, hl, fl⟩ := lv_first (A := A) (B := B) ht hu (M := M) (by omega) (R := x :: (v ++ s :: R)) (.of hx _ (by decide))
    obtain ⟨te, he, fe⟩ := exp_first (A := A) (B := B) hv (M := M) (by omega) (R := s :: R) (.of hs _ rfl rfl)
    refine ⟨.nonblocking tl none te, ⟨?_, ?_, fun _ => rfl, rfl, fun _ => rfl, rfl, fun _ _ e => by first | rfl | cases e⟩, ?_⟩
    · rw [evItem, SStm.eval, hl.ev, he.ev]
    · intro h; rw [SStm.Ok] at h; exact ⟨hl.ok h.1, he.ok h.2⟩
    · simp only [List.append_assoc]
      refine First.bindH (First.orN (blocking_nil (target_lv ht hu) (by rw [hx]; rfl) (by rw [hx]; exact le_op) M) (First.orL ?_))
        (First.bindH (First.tok hs R) (First.ret _ _))
      exact First.bindH fl (First.bindH (First.tok hx _) (First.bindH (First.noneE (exp_no (delayOrEvent_no _) hv _)) (First.bindH fe (First.ret _ _))))
  | some t =>
    rw [SStm.Toks] at h
    obtain ⟨ht, u, _, rfl, hu, _, _, rfl, ⟨x, rfl, hx⟩, v, _, rfl, hv, z, _, rfl, hz, ⟨s, rfl, hs⟩⟩ := h
    simp only [List.length_append, List.length_cons, List.length_nil] at hM
    obtain ⟨tl, hl, fl⟩ := lv_first (A := A) (B := B) ht hu (M := M) (by omega) (R := x :: (v ++ (z ++ s :: R))) (.of hx _ (by decide))
    obtain ⟨td, hd, fd⟩ := delayOrEvent_first (A := A) (B := B) (Bs := Bs) hv (M := M) (by omega) (R := z ++ s :: R) (tEnd_exp hz _ _)
    obtain ⟨te, he, fe⟩ := exp_first (A := A) (B := B) hz (M := M) (by omega) (R := s :: R) (.of hs _ rfl rfl)
    refine ⟨.nonblocking tl (some td) te, ⟨?_, ?_, fun _ => rfl, rfl, fun _ => rfl, rfl, fun _ _ e => by first | rfl | cases e⟩, ?_⟩
    · rw [evItem, SStm.eval, hl.ev, he.ev, hd.ev]
    · intro h; rw [SStm.Ok] at h; exact ⟨hl.ok h.1, he.ok h.2.2, hd.ok h.2.1⟩
    · simp only [List.append_assoc]
      refine First.bindH (First.orN (blocking_nil (target_lv ht hu) (by rw [hx]; rfl) (by rw [hx]; exact le_op) M) (First.orL ?_))
        (First.bindH (First.tok hs R) (First.ret _ _))
      exact First.bindH fl (First.bindH (First.tok hx _) (First.bindH (First.some fd) (First.bindH fe (First.ret _ _))))

/-! ## `++`, `--` -/

theorem incDec_op (inc : Bool) (a : AssignOp) : incDecTy inc ≠ AssignOp.ty a := by cases inc <;> cases a <;> decide
theorem incDec_stop (inc : Bool) : lvStop (incDecTy inc) = true := by cases inc <;> rfl
theorem incDec_le (inc : Bool) : incDecTy inc ≠ .LE := by cases inc <;> decide
theorem incDec_first {inc : Bool} {x : STok} (h : x.ty = incDecTy inc) (R : List STok) : First None' incOrDecOperator (x :: R) inc R := by
  refine First.of_eq (toks_one ?_ R)
  rw [h]; cases inc <;> rfl
theorem attributes_ne {E : Env} {x : STok} {s : List STok} (h : x.ty ≠ .LPAREN) : attributes E (x :: s) = [([], x :: s)] :=
  many_none (bind_nil (tok_neg h s))
theorem target_ne {p : SPrim} {w : List STok} (hp : target p = true) (h : p.Toks w) {t : ST} (ht : isIdTok t = false) (ht2 : t ≠ .LBRACE) (R : List STok) :
    ∀ y s, w ++ R = y :: s → y.ty ≠ t := by
  obtain ⟨x, s, rfl, hx⟩ := target_head hp h
  intro _ _ e; cases e; rintro rfl
  rcases hx with hx | hx
  · rw [ht] at hx; cases hx
  · exact ht2 hx
theorem target_no {α : Type} {p : SPrim} {w : List STok} (hp : target p = true) (h : p.Toks w) {q : P α} {N : ST → Bool} (hq : NoAt N q)
    (hN : ∀ t, isIdTok t = true ∨ t = .LBRACE → N t = true) (R : List STok) : q (w ++ R) = [] := by
  obtain ⟨x, s, rfl, hx⟩ := target_head hp h
  exact hq.cons (hN _ hx)

theorem incDec_item {pre inc : Bool} {l : SPrim} {w : List STok} (h : (SStm.incDec pre inc l).Toks w) {M : Nat} (hM : w.length ≤ M) (R : List STok) :
    ∃ i, MI A Bs i (.incDec pre inc l) ∧ First None' (simpleItem B (env B M)) (w ++ R) i R := by
  rw [SStm.Toks] at h
  obtain ⟨_, _, rfl, ⟨ht, h⟩, ⟨s, rfl, hs⟩⟩ := h
  cases pre with
  | true =>
    simp only [if_true] at h
    obtain ⟨_, u, rfl, ⟨x, rfl, hx⟩, hu⟩ := h
    simp only [List.length_append, List.length_cons, List.length_nil] at hM
    obtain ⟨tl, hl, fl⟩ := lv_first (A := A) (B := B) ht hu (M := M) (by omega) (R := s :: R) (.of hs _ (by decide))
    refine ⟨.incDec true inc tl, ⟨?_, ?_, fun _ => rfl, rfl, fun _ => rfl, rfl, fun _ _ e => by first | rfl | cases e⟩, ?_⟩
    · rw [evItem, SStm.eval, hl.ev]
    · intro h; rw [SStm.Ok] at h; exact hl.ok h
    · simp only [List.append_assoc]
      refine First.bindH (First.orN ((blocking_no B M).cons ?_) (First.orN ((nonblocking_no B M).cons ?_) (First.orN (bind_nil ((procCont_no _).cons ?_)) (First.orL (First.orL ?_)))))
        (First.bindH (First.tok hs R) (First.ret _ _))
      · rw [hx]; cases inc <;> rfl
      · rw [hx]; cases inc <;> rfl
      · rw [hx]; cases inc <;> rfl
      · refine First.bindH (incDec_first hx _) (First.bindH (First.of_eq (a := []) ?_) (First.bindH fl (First.ret _ _)))
        obtain ⟨y, v, rfl, hy⟩ := target_head ht hu
        refine attributes_ne ?_
        intro hp; rw [hp] at hy; revert hy; decide
  | false =>
    simp only [Bool.false_eq_true, if_false] at h
    obtain ⟨u, _, rfl, hu, ⟨x, rfl, hx⟩⟩ := h
    simp only [List.length_append, List.length_cons, List.length_nil] at hM
    obtain ⟨tl, hl, fl⟩ := lv_first (A := A) (B := B) ht hu (M := M) (by omega) (R := x :: s :: R) (.of hx _ (by cases inc <;> decide))
    refine ⟨.incDec false inc tl, ⟨?_, ?_, fun _ => rfl, rfl, fun _ => rfl, rfl, fun _ _ e => by first | rfl | cases e⟩, ?_⟩
    · rw [evItem, SStm.eval, hl.ev]
    · intro h; rw [SStm.Ok] at h; exact hl.ok h
    · simp only [List.append_assoc]
      have hlt := target_lv ht hu
      refine First.bindH (First.orN (blocking_nil hlt (by rw [hx]; exact incDec_stop inc) (by rw [hx]; exact incDec_op inc) M)
        (First.orN (nonblocking_nil hlt (by rw [hx]; exact incDec_stop inc) (by rw [hx]; exact incDec_le inc) M)
        (First.orN (bind_nil (target_no ht hu (procCont_no _) ?_ _)) (First.orL (First.orN (bind_nil (target_no ht hu (N := fun t => t != .INCR && t != .DECR) (.toks (by decide)) ?_ _)) ?_)))))
        (First.bindH (First.tok hs R) (First.ret _ _))
      · rintro t (h | rfl)
        · cases t <;> first | rfl | cases h
        · rfl
      · rintro t (h | rfl)
        · cases t <;> first | rfl | cases h
        · rfl
      · exact First.bindH fl (First.bindH (First.of_eq (attributes_ne (by rw [hx]; cases inc <;> decide))) (First.bindH (incDec_first hx _) (First.ret _ _)))

/-! ## Calls -/

theorem incDecPost_nil {w R : List STok} {o : STok} (hw : LvText w) (ho : o.ty = .SEMI ∨ o.ty = .LPAREN ∧ ∀ y s, R = y :: s → y.ty ≠ .MUL) (M : Nat) {β : Type} (f : LVal → Bool → P β) :
    ((env B M).lvalue >>= fun l => attributes (env B M) >>= fun _ => incOrDecOperator >>= fun o => f l o) (w ++ o :: R) = [] := by
  refine lv_seq (lv_env B M) hw (by rcases ho with h | h; rw [h]; rfl; rw [h.1]; rfl) (fun _ => .manyBind (attributeInstance_no _ rfl) (.bind (.toks (by decide)))) fun _ => ?_
  have ha : attributes (env B M) (o :: R) = [([], o :: R)] := by
    rcases ho with h | ⟨h, hR⟩
    · exact attributes_ne (by rw [h]; decide)
    · refine many_none ?_
      show (tok .LPAREN >>= fun _ => tok .MUL >>= fun _ => _) _ = []
      rw [bind_apply, tok_pos h]
      simp only [List.flatMap_cons, List.flatMap_nil, List.append_nil]
      exact bind_nil (tok_ne hR)
  rw [bind_apply, ha]
  simp only [List.flatMap_cons, List.flatMap_nil, List.append_nil]
  refine bind_nil ((NoAt.toks (N := fun t => t == .SEMI || t == .LPAREN) (by decide)).cons ?_)
  rcases ho with h | h
  · rw [h]; rfl
  · rw [h.1]; rfl

theorem args_ne : ∀ (l : List SArg) (v : List STok), argsToks l v → ∀ (c : STok) R, c.ty = .RPAREN → ∀ y s, v ++ c :: R = y :: s → y.ty ≠ .MUL := by
  have hm : ∀ (l : List SArg) (v : List STok), moreToks l v → ∀ (c : STok) R, c.ty = .RPAREN → ∀ y s, v ++ c :: R = y :: s → y.ty ≠ .MUL := by
    intro l v h c R hc y s e
    cases l with
    | nil => rw [moreToks, Spec.SvLrm.Empty] at h; subst h; cases e; rw [hc]; decide
    | cons a l =>
      rw [moreToks] at h
      obtain ⟨_, _, rfl, ⟨x, rfl, hx⟩, -⟩ := h
      cases e; rw [hx]; decide
  intro l v h c R hc
  cases l with
  | nil => rw [argsToks, Spec.SvLrm.Empty] at h; subst h; intro y s e; cases e; rw [hc]; decide
  | cons a l =>
    rw [argsToks] at h
    obtain ⟨u, v, rfl, hu, hv⟩ := h
    cases a with
    | «omit» => rw [SArg.Toks, Spec.SvLrm.Empty] at hu; subst hu; exact hm l v hv c R hc
    | pos e => rw [SArg.Toks] at hu; rw [List.append_assoc]; exact exp_ne hu rfl _
    | named i e => rw [SArg.Toks] at hu; obtain ⟨_, _, rfl, ⟨x, rfl, hx⟩, -⟩ := hu; intro y s e; cases e; rw [hx]; decide
    | namedEmpty i => rw [SArg.Toks] at hu; obtain ⟨_, _, rfl, ⟨x, rfl, hx⟩, -⟩ := hu; intro y s e; cases e; rw [hx]; decide

theorem prim_first {p : SPrim} {w : List STok} (h : p.Toks w) {M : Nat} (hM : w.length ≤ M) {s : STok} (hs : s.ty = .SEMI) (R : List STok) :
    ∃ t, MPr A t p ∧ First None' (primary B (env B M)) (w ++ s :: R) t (s :: R) := by
  have hp : PEnds (s :: R) := by intro _ _ e; cases e; rw [hs]; rfl
  obtain ⟨t, ht, fl⟩ := (good_all (A := A) (B := B) w.length).prim p w h (Nat.le_refl _) M hM (s :: R) (hp.phead p)
  exact ⟨t, ht, fl.stop (primaryStep_nil hp)⟩

theorem semi_op (a : AssignOp) : ST.SEMI ≠ AssignOp.ty a := by cases a <;> decide
theorem paren_op (a : AssignOp) : ST.LPAREN ≠ AssignOp.ty a := by cases a <;> decide

theorem ident_no {α : Type} {i : Ident} {x : STok} (hx : Ident.Tok i x) {q : P α} {N : ST → Bool} (hq : NoAt N q)
    (hN : ∀ t, isIdTok t = true → N t = true) (R : List STok) : q (x :: R) = [] := hq.cons (hN _ (ident_id hx))

/-- The alternatives of the simple statements in front of the primary, at a name. -/
theorem call_nil {w R : List STok} {o : STok} {i : Ident} {x : STok} {v : List STok} (hx : Ident.Tok i x) (e : w = x :: v) (hw : LvText w)
    (ho : o.ty = .SEMI ∨ o.ty = .LPAREN ∧ ∀ y s, R = y :: s → y.ty ≠ .MUL) (M : Nat) :
    blockingAssignment (env B M) (w ++ o :: R) = [] ∧ nonblockingAssignment (env B M) (w ++ o :: R) = [] ∧
    proceduralContinuousAssignment (env B M) (w ++ o :: R) = [] ∧ incOrDecItem (env B M) (w ++ o :: R) = [] := by
  have hs : lvStop o.ty = true := by rcases ho with h | h; rw [h]; rfl; rw [h.1]; rfl
  refine ⟨blocking_nil hw hs ?_ M, nonblocking_nil hw hs ?_ M, ?_, ?_⟩
  · rcases ho with h | h
    · rw [h]; exact semi_op
    · rw [h.1]; exact paren_op
  · rcases ho with h | h
    · rw [h]; decide
    · rw [h.1]; decide
  · subst e
    refine ident_no hx (procCont_no _) ?_ _
    intro t h; cases t <;> first | rfl | cases h
  · have h1 := incDecPost_nil (B := B) hw ho M (fun l o => (pure (StmItem.incDec false o l) : P StmItem))
    show (incOrDecOperator >>= fun o => _) _ ++ _ = []
    rw [show ((incOrDecOperator >>= fun o => attributes (env B M) >>= fun _ => (env B M).lvalue >>= fun l => (pure (StmItem.incDec true o l) : P StmItem)) (w ++ o :: R)) = [] from ?_]
    · exact h1
    · subst e
      refine bind_nil (ident_no hx (N := fun t => t != .INCR && t != .DECR) (.toks (by decide)) ?_ _)
      intro t h; cases t <;> first | rfl | cases h

theorem call_item {p : SPrim} {w : List STok} (h : (SStm.call p).Toks w) {M : Nat} (hM : w.length ≤ M) (R : List STok) :
    ∃ i, MI A Bs i (.call p) ∧ First None' (simpleItem B (env B M)) (w ++ R) i R := by
  rw [SStm.Toks] at h
  obtain ⟨hc, u, _, rfl, hu, ⟨s, rfl, hs⟩⟩ := h
  simp only [List.length_append, List.length_cons, List.length_nil] at hM
  obtain ⟨t, ht, ft⟩ := prim_first (A := A) (B := B) hu (M := M) (by omega) hs R
  refine ⟨.prim t, ⟨?_, ?_, fun _ => rfl, rfl, fun _ => rfl, rfl, fun _ _ e => by first | rfl | cases e⟩, ?_⟩
  · rw [evItem, SStm.eval, ht.ev]
  · intro h; rw [SStm.Ok] at h; exact ht.ok h
  · rw [List.append_assoc]
    have key : blockingAssignment (env B M) (u ++ s :: R) = [] ∧ nonblockingAssignment (env B M) (u ++ s :: R) = [] ∧
        proceduralContinuousAssignment (env B M) (u ++ s :: R) = [] ∧ incOrDecItem (env B M) (u ++ s :: R) = [] := by
      have hcall : ∀ p u, callable p = true → SPrim.Toks p u → blockingAssignment (env B M) (u ++ s :: R) = [] ∧ nonblockingAssignment (env B M) (u ++ s :: R) = [] ∧
        proceduralContinuousAssignment (env B M) (u ++ s :: R) = [] ∧ incOrDecItem (env B M) (u ++ s :: R) = [] := by
        intro p u hp hu
        obtain ⟨i, x, v, e, hx⟩ := callable_head p u hp hu
        exact call_nil hx e (callable_lv p u hp hu) (.inl hs) M
      have hsys : ∀ (x : STok) v, x.ty = .SYSTEM_TF_IDENTIFIER → blockingAssignment (env B M) (x :: v) = [] ∧ nonblockingAssignment (env B M) (x :: v) = [] ∧
        proceduralContinuousAssignment (env B M) (x :: v) = [] ∧ incOrDecItem (env B M) (x :: v) = [] := by
        intro x v hx
        exact ⟨(blocking_no B M).cons (by rw [hx]; rfl), (nonblocking_no B M).cons (by rw [hx]; rfl), (procCont_no _).cons (by rw [hx]; rfl), (incDec_no B M).cons (by rw [hx]; rfl)⟩
      cases p with
      | call q l =>
        rw [SPrim.Toks] at hu
        obtain ⟨-, hq, u, _, rfl, hu, _, _, rfl, ⟨o, rfl, ho⟩, v, _, rfl, hv, ⟨c, rfl, hc⟩⟩ := hu
        obtain ⟨i, x, v', e, hx⟩ := callable_head q u hq hu
        simp only [List.append_assoc]
        refine call_nil hx e (callable_lv q u hq hu) (.inr ⟨ho, ?_⟩) M
        exact args_ne l v hv c _ hc
      | sys f =>
        rw [SPrim.Toks] at hu
        obtain ⟨x, rfl, hx, -⟩ := hu
        exact hsys x _ hx
      | sysCall f l =>
        rw [SPrim.Toks] at hu
        obtain ⟨-, _, _, rfl, ⟨x, rfl, hx, -⟩, -⟩ := hu
        exact hsys x _ hx
      | name i l => exact hcall _ u hc hu
      | bit p e => exact hcall _ u hc hu
      | dot p i => exact hcall _ u hc hu
      | lit l => cases hc
      | paren e => cases hc
      | cast p e => cases hc
      | part p k a b => cases hc
      | concat e l => cases hc
      | repl n e l => cases hc
      | pat e l => cases hc
      | patKeys k l => cases hc
    exact First.bindH (First.orN key.1 (First.orN key.2.1 (First.orN (bind_nil key.2.2.1) (First.orN key.2.2.2 (First.orL (First.map (f := StmItem.prim) ft))))))
      (First.bindH (First.tok hs R) (First.ret _ _))

end Verif.Sv
