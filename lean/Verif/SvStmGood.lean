import Verif.SvStmHead
/-!
# The parse of SystemVerilog statements
-/
namespace Verif.Sv
open P Verif.Spec.SvLrm Verif.Spec.Sv

variable {V S : Type} {A : Alg V} {Bs : SAlg V S} {B : Rules} {C : StmRules}

variable (A Bs) in
/-- A tree of a statement means the same as the text. -/
structure MS (t : StmN) (s : SStm) : Prop where
  ev : evStmN A Bs t = s.eval A Bs
  ok : s.Ok → okStmN t
  labIf : labelledIf t = s.labIf
  labBlock : labelledBlock t = s.labBlock
  fork : isForkN t = s.isFork

/-- What follows a statement: no `:`, and no `else` if that could belong to it. -/
def SEnd (o : Bool) (R : List STok) : Prop := ∀ y s, R = y :: s → y.ty ≠ .COLON ∧ (o = true → y.ty ≠ .KW_ELSE)

theorem SEnd.weak {o : Bool} {R : List STok} (h : SEnd true R) : SEnd o R := fun y s e => ⟨(h y s e).1, fun _ => (h y s e).2 rfl⟩
theorem SEnd.of {o : Bool} {y : STok} {t : ST} (hy : y.ty = t) (s : List STok) (h : t ≠ .COLON ∧ t ≠ .KW_ELSE) : SEnd o (y :: s) := by
  rintro _ _ ⟨⟩; rw [hy]; exact ⟨h.1, fun _ => h.2⟩
theorem SEnd.stm {o : Bool} {s : SStm} {w : List STok} (h : s.Toks w) (R : List STok) : SEnd o (w ++ R) :=
  fun y v e => ⟨stm_ne h rfl rfl R y v e, fun _ => stm_ne h rfl rfl R y v e⟩

variable (A Bs B) in
/-- The rule `F` reads statements up to length `k`. -/
def GoodF (F : P Stm) (M k : Nat) : Prop := ∀ (s : SStm) (w : List STok), s.Toks w → w.length ≤ k → ∀ R, SEnd s.openIf R →
  ∃ t, MS A Bs t s ∧ First None' (statementOrNull (env B M) F) (w ++ R) t R

/-! ## Labels -/

theorem blockLabel_first {n : Option Ident} {w : List STok} (h : labelToks n w) {R : List STok} (hR : ∀ y s, R = y :: s → y.ty ≠ .COLON) :
    First None' blockLabel (w ++ R) n R := by
  cases n with
  | none =>
    rw [labelToks, Spec.SvLrm.Empty] at h; subst h
    refine First.orN (bind_nil (tok_ne hR)) (First.bindH (a := ()) (r1 := R) (First.of_eq ?_) (First.ret _ _))
    cases R with
    | nil => rfl
    | cons y s => show (if _ then _ else _) = _; rw [if_neg (hR y s rfl)]
  | some i =>
    rw [labelToks] at h
    obtain ⟨_, _, rfl, ⟨x, rfl, hx⟩, ⟨y, rfl, hy⟩⟩ := h
    exact First.orL (First.bindH (First.tok hx _) (First.bindH (identifier_first hy _) (First.ret _ _)))

/-! ## Lists of statements -/

theorem null_end (M n : Nat) {y : STok} (hy : y.ty ∈ stmEnd) (hs : y.ty ≠ .SEMI) (R : List STok) :
    statementOrNull (env B M) (statement B C (env B M) n) (y :: R) = [] := by
  have hp : y.ty ≠ .LPAREN := by intro h; rw [h] at hy; revert hy; decide
  show (statement B C (env B M) n >>= fun _ => _) _ ++ (attributes (env B M) >>= fun _ => _) _ = []
  rw [bind_nil (statement_end M n hy R), bind_apply, attributes_ne hp]
  simp only [List.flatMap_cons, List.flatMap_nil, List.append_nil, List.nil_append]
  exact bind_nil (tok_neg hs R)

/-- The end of a list of statements. -/
def BlockEnd (R : List STok) : Prop := ∃ y s, R = y :: s ∧ y.ty ∈ stmEnd ∧ y.ty ≠ .SEMI

theorem BlockEnd.send {o : Bool} {R : List STok} (h : BlockEnd R) : SEnd o R := by
  obtain ⟨y, s, rfl, h, -⟩ := h
  rintro _ _ ⟨⟩
  exact ⟨by intro e; rw [e] at h; revert h; decide, fun _ e => by rw [e] at h; revert h; decide⟩

theorem stms_send {o : Bool} : ∀ {l : List SStm} {v : List STok}, stmsToks l v → ∀ {R}, BlockEnd R → SEnd o (v ++ R)
  | [], v, h, R, hR => by rw [stmsToks, Spec.SvLrm.Empty] at h; subst h; exact hR.send
  | s :: l, v, h, R, hR => by
    rw [stmsToks] at h
    obtain ⟨u, v, rfl, hu, -⟩ := h
    rw [List.append_assoc]; exact .stm hu _

theorem stms_decl {l : List SStm} {v : List STok} (h : stmsToks l v) {R : List STok} (hR : BlockEnd R) (M : Nat) :
    blockItemDeclaration C (env B M) (v ++ R) = [] := by
  cases l with
  | nil =>
    rw [stmsToks, Spec.SvLrm.Empty] at h; subst h
    obtain ⟨y, s, rfl, h, -⟩ := hR
    refine (decl_no B C M).cons ?_
    simp only [stmEnd, List.mem_cons, List.not_mem_nil, or_false] at h
    rcases h with h | h | h | h | h <;> rw [h] <;> rfl
  | cons s l =>
    rw [stmsToks] at h
    obtain ⟨u, v, rfl, hu, -⟩ := h
    rw [List.append_assoc]; exact stm_decl hu M _

theorem stms_first {M n k : Nat} (hF : GoodF A Bs B (statement B C (env B M) n) M k) : ∀ (l : List SStm) (v : List STok), stmsToks l v → v.length ≤ k →
    ∀ R, BlockEnd R → ∃ ts, (evStmNs A Bs ts = stmsEval A Bs l ∧ (stmsOk l → okStmNs ts)) ∧
    ∀ m, v.length ≤ m → First None' (manyN (statementOrNull (env B M) (statement B C (env B M) n)) m) (v ++ R) ts R
  | [], v, h, _, R, hR => by
    rw [stmsToks, Spec.SvLrm.Empty] at h; subst h
    obtain ⟨y, s, rfl, h1, h2⟩ := hR
    exact ⟨[], ⟨rfl, fun _ => trivial⟩, fun m _ => First.of_eq (manyN_stop (null_end M n h1 h2 s) m)⟩
  | s :: l, v, h, hk, R, hR => by
    rw [stmsToks] at h
    obtain ⟨u, v, rfl, hu, hv⟩ := h
    have hne := stm_nonempty hu
    simp only [List.length_append] at hk
    obtain ⟨t, ht, ft⟩ := hF s u hu (by omega) (v ++ R) (stms_send hv hR)
    obtain ⟨ts, ⟨hev, hok⟩, fts⟩ := stms_first hF l v hv (by omega) R hR
    refine ⟨t :: ts, ⟨?_, ?_⟩, ?_⟩
    · rw [evStmNs, stmsEval, ht.ev, hev]
    · intro h; rw [stmsOk] at h; rw [okStmNs]; exact ⟨ht.ok h.1, hok h.2⟩
    · intro m hm
      have : u.length ≠ 0 := by simpa using hne
      simp only [List.length_append] at hm
      obtain ⟨m, rfl⟩ : ∃ j, m = j + 1 := ⟨m - 1, by omega⟩
      rw [List.append_assoc]
      exact First.manyCons ft (fts m (by omega))

/-! ## Items of `case` -/

variable (A Bs) in
structure MC (t : CaseItem) (c : SCase) : Prop where
  vals : ∀ l, evCases A Bs (t :: l) = c.values A Bs ++ evCases A Bs l
  dflt : ∀ l, evDefault A Bs (t :: l) = (c.default A Bs <|> evDefault A Bs l)
  ok : ∀ l, c.Ok → okCaseItems l → okCaseItems (t :: l)
  isDflt : isDefault t = c.isDflt

/-- `,` or `:` -/
def CommaColon (R : List STok) : Prop := ∃ y s, R = y :: s ∧ (y.ty = .COMMA ∨ y.ty = .COLON)
theorem CommaColon.sep {R : List STok} (h : CommaColon R) : Sep R := by
  obtain ⟨y, s, rfl, h | h⟩ := h
  · exact .of h _ rfl rfl
  · exact .of h _ rfl rfl

theorem expsOk_all : ∀ {l : List SExp}, expsOk l → ∀ e ∈ l, e.Ok
  | [], _ => by simp
  | e :: l, h => by
    rw [expsOk] at h
    intro x hx
    rcases List.mem_cons.1 hx with rfl | hx
    · exact h.1
    · exact expsOk_all h.2 x hx

theorem caseItem_first {M n k : Nat} (hF : GoodF A Bs B (statement B C (env B M) n) M k) {c : SCase} {w : List STok} (h : c.Toks w) (hk : w.length ≤ k) (hM : w.length < M)
    {R : List STok} (hR : SEnd true R) : ∃ t, MC A Bs t c ∧ First None' (caseItem (env B M) (statement B C (env B M) n)) (w ++ R) t R := by
  cases c with
  | exprs e l s =>
    rw [SCase.Toks] at h
    obtain ⟨u, _, rfl, hu, v, _, rfl, hv, _, z, rfl, ⟨x, rfl, hx⟩, hz⟩ := h
    simp only [List.length_append, List.length_cons, List.length_nil] at hk hM
    obtain ⟨ts, ht, ft⟩ := commas_first (D := None') (p := (env B M).expression 0) (T := SExp.Toks) (M := ME A) (N := M) (Rst := CommaColon)
      (fun a u R h hN hR => exp_first (A := A) (B := B) h hN hR.sep) (fun z R hz => ⟨z, R, rfl, .inl hz⟩) (fun r h => h.elim) e l u v (x :: (z ++ R)) hu
      (exps_rest l v hv) (by simp only [List.length_append]; omega) ⟨x, _, rfl, .inr hx⟩ (tok_neg (by rw [hx]; decide) _)
    obtain ⟨t, hs, fs⟩ := hF s z hz (by omega) R hR.weak
    refine ⟨.exprs ts t, ⟨?_, ?_, ?_, rfl⟩, ?_⟩
    · intro l'
      rw [evCases, SCase.values]
      congr 1
      exact all2_map (fun a b h => by rw [h.ev, hs.ev]) ht
    · intro l'; rw [evDefault, SCase.default]; rfl
    · intro l' h1 h2
      rw [SCase.Ok] at h1
      rw [okCaseItems]
      refine ⟨all2_all (q := SExp.Ok) (fun a b h => h.ok) ht ?_, hs.ok h1.2.2, h2⟩
      intro b hb
      rcases List.mem_cons.1 hb with rfl | hb
      · exact h1.1
      · exact expsOk_all h1.2.1 b hb
    · simp only [List.append_assoc, List.cons_append, List.nil_append] at ft ⊢
      exact First.orN (bind_nil (tok_ne (exp_ne hu rfl _))) (First.bindH ft (First.bindH (First.tok hx _) (First.bindH fs (First.ret _ _))))
  | dflt colon s =>
    have key : ∀ {t : StmN}, MS A Bs t s → MC A Bs (.dflt t) (.dflt colon s) := fun hs => by
      refine ⟨?_, ?_, ?_, rfl⟩
      · intro l'; rw [evCases, SCase.values]; rfl
      · intro l'; rw [evDefault, SCase.default, hs.ev]; rfl
      · intro l' h1 h2; rw [SCase.Ok] at h1; rw [okCaseItems]; exact ⟨hs.ok h1, h2⟩
    cases colon with
    | true =>
      rw [SCase.Toks] at h
      obtain ⟨_, _, rfl, ⟨x, rfl, hx⟩, _, z, rfl, ⟨y, rfl, hy⟩, hz⟩ := h
      simp only [List.length_append, List.length_cons, List.length_nil] at hk hM
      obtain ⟨t, hs, fs⟩ := hF s z hz (by omega) R hR.weak
      exact ⟨.dflt t, key hs, First.orL (First.bindH (First.tok hx _) (First.bindH (First.some (First.tok hy _)) (First.bindH fs (First.ret _ _))))⟩
    | false =>
      rw [SCase.Toks] at h
      obtain ⟨_, z, rfl, ⟨x, rfl, hx⟩, hz⟩ := h
      simp only [List.length_append, List.length_cons, List.length_nil] at hk hM
      obtain ⟨t, hs, fs⟩ := hF s z hz (by omega) R hR.weak
      exact ⟨.dflt t, key hs, First.orL (First.bindH (First.tok hx _) (First.bindH (First.noneE (tok_ne (stm_ne hz rfl rfl R))) (First.bindH fs (First.ret _ _))))⟩

/-- An item of a `case` begins with none of these. -/
theorem case_ne {c : SCase} {w : List STok} (h : c.Toks w) {t : ST} (ht : eNo t = true) (hd : t ≠ .KW_DEFAULT) (R : List STok) :
    ∀ y s, w ++ R = y :: s → y.ty ≠ t := by
  cases c with
  | exprs e l s =>
    rw [SCase.Toks] at h
    obtain ⟨u, _, rfl, hu, -⟩ := h
    rw [List.append_assoc]; exact exp_ne hu ht _
  | dflt colon s =>
    cases colon <;> rw [SCase.Toks] at h <;> obtain ⟨_, _, rfl, ⟨x, rfl, hx⟩, -⟩ := h <;> rintro _ _ ⟨⟩ <;> rw [hx] <;> exact hd.symm

theorem case_special {c : SCase} {w : List STok} (h : c.Toks w) (R : List STok) : ∀ y s, w ++ R = y :: s → isSpecial y.ty = false := by
  cases c with
  | exprs e l s =>
    rw [SCase.Toks] at h
    obtain ⟨u, _, rfl, hu, -⟩ := h
    rw [List.append_assoc]; exact exp_special hu _
  | dflt colon s =>
    cases colon <;> rw [SCase.Toks] at h <;> obtain ⟨_, _, rfl, ⟨x, rfl, hx⟩, -⟩ := h <;> rintro _ _ ⟨⟩ <;> rw [hx] <;> rfl

theorem case_nonempty {c : SCase} {w : List STok} (h : c.Toks w) : w ≠ [] := by
  cases c with
  | exprs e l s =>
    rw [SCase.Toks] at h
    obtain ⟨u, _, rfl, hu, _, _, rfl, -, _, _, rfl, ⟨x, rfl, -⟩, -⟩ := h
    simp
  | dflt colon s =>
    cases colon <;> rw [SCase.Toks] at h <;> obtain ⟨_, _, rfl, ⟨x, rfl, hx⟩, -⟩ := h <;> simp

theorem cases_send {o : Bool} {l : List SCase} {v : List STok} (h : casesToks l v) {y : STok} (hy : y.ty = .KW_ENDCASE) (R : List STok) : SEnd o (v ++ y :: R) := by
  cases l with
  | nil => rw [casesToks, Spec.SvLrm.Empty] at h; subst h; exact .of hy _ (by decide)
  | cons c l =>
    rw [casesToks] at h
    obtain ⟨u, v, rfl, hu, -⟩ := h
    rw [List.append_assoc]
    exact fun y s e => ⟨case_ne hu rfl (by decide) _ y s e, fun _ => case_ne hu rfl (by decide) _ y s e⟩

theorem cases_first {M n k : Nat} (hF : GoodF A Bs B (statement B C (env B M) n) M k) {z : STok} (hz : z.ty = .KW_ENDCASE) (R : List STok) :
    ∀ (l : List SCase) (v : List STok), casesToks l v → v.length ≤ k → v.length < M →
    ∃ ts, (evCases A Bs ts = casesValues A Bs l ∧ evDefault A Bs ts = casesDefault A Bs l ∧ (casesOk l → okCaseItems ts) ∧
      (ts.filter isDefault).length = (l.filter SCase.isDflt).length) ∧
    ∀ m, v.length ≤ m → First None' (manyN (caseItem (env B M) (statement B C (env B M) n)) m) (v ++ z :: R) ts (z :: R)
  | [], v, h, _, _ => by
    rw [casesToks, Spec.SvLrm.Empty] at h; subst h
    refine ⟨[], ⟨rfl, rfl, fun _ => trivial, rfl⟩, fun m _ => First.of_eq (manyN_stop ?_ m)⟩
    have h2 : P.sepBy .COMMA ((env B M).expression 0) (z :: R) = [] := bind_nil ((expression_eNo B M 0).cons (by rw [hz]; rfl))
    show (tok .KW_DEFAULT >>= fun _ => _) _ ++ (P.sepBy .COMMA ((env B M).expression 0) >>= fun _ => _) _ = []
    rw [List.nil_append, bind_nil (tok_neg (by rw [hz]; decide) R), bind_nil h2]; rfl
  | c :: l, v, h, hk, hM => by
    rw [casesToks] at h
    obtain ⟨u, v, rfl, hu, hv⟩ := h
    have hne := case_nonempty hu
    simp only [List.length_append] at hk hM
    obtain ⟨t, ht, ft⟩ := caseItem_first hF hu (by omega) (by omega) (cases_send hv hz R)
    obtain ⟨ts, ⟨h1, h2, h3, h4⟩, fts⟩ := cases_first hF hz R l v hv (by omega) (by omega)
    refine ⟨t :: ts, ⟨?_, ?_, ?_, ?_⟩, ?_⟩
    · rw [ht.vals, casesValues, h1]
    · rw [ht.dflt, casesDefault, h2]
    · intro h; rw [casesOk] at h; exact ht.ok _ h.1 (h3 h.2)
    · rw [List.filter_cons, List.filter_cons, ht.isDflt]; split <;> simp [h4]
    · intro m hm
      have : u.length ≠ 0 := by simpa using hne
      simp only [List.length_append] at hm
      obtain ⟨m, rfl⟩ : ∃ j, m = j + 1 := ⟨m - 1, by omega⟩
      rw [List.append_assoc]
      exact First.manyCons ft (fts m (by omega))

theorem uniq_first {u : Option UniqPrio} {w : List STok} (h : uniqToks u w) {x : STok} (hx : kHead x.ty = 1 ∧ x.ty ≠ .KW_UNIQUE ∧ x.ty ≠ .KW_UNIQUE0 ∧ x.ty ≠ .KW_PRIORITY)
    (R : List STok) : First None' (opt uniquePriority) (w ++ x :: R) u (x :: R) := by
  rcases u with _ | ⟨_ | _ | _⟩ <;> rw [uniqToks] at h
  · rw [Spec.SvLrm.Empty] at h; subst h
    refine First.noneE (toks_neg ?_ _)
    intro a h
    simp only [List.mem_cons, Prod.mk.injEq, List.not_mem_nil, or_false] at h
    rcases h with h | h | h
    · exact hx.2.1 h.1
    · exact hx.2.2.1 h.1
    · exact hx.2.2.2 h.1
  all_goals
    obtain ⟨y, rfl, hy⟩ := h
    refine First.some (First.of_eq ?_)
    rw [uniquePriority, P.toks, alts_apply]
    simp [bind_apply, tok_cons, hy, pure_apply]

theorem caseTy_head (k : CaseKw) : kHead (caseTy k) = 1 ∧ caseTy k ≠ .KW_UNIQUE ∧ caseTy k ≠ .KW_UNIQUE0 ∧ caseTy k ≠ .KW_PRIORITY := by cases k <;> decide

theorem caseKw_first {k : CaseKw} {x : STok} (h : x.ty = caseTy k) (R : List STok) : First None' caseKeyword (x :: R) k R := by
  refine First.of_eq ?_
  rw [caseKeyword, P.toks, alts_apply]
  cases k <;> simp [bind_apply, tok_cons, h, caseTy, pure_apply]

theorem join_first {j : Join} {x : STok} (h : joinTy j = some x.ty) (R : List STok) : First None' joinKeyword (x :: R) j R := by
  refine First.of_eq ?_
  rw [joinKeyword, P.toks, alts_apply]
  cases j <;> simp only [joinTy, reduceCtorEq, Option.some.injEq] at h <;> simp [bind_apply, tok_cons, ← h, pure_apply]

theorem join_end {j : Join} {x : STok} (h : joinTy j = some x.ty) : x.ty ∈ stmEnd ∧ x.ty ≠ .SEMI := by
  cases j <;> simp only [joinTy, reduceCtorEq, Option.some.injEq] at h <;> rw [← h] <;> decide

/-- `( c )` of an `if` -/
theorem cond_first {e : SExp} {w : List STok} (h : inParens e.Toks w) {M : Nat} (hM : w.length ≤ M) (R : List STok) :
    ∃ t, ME A t e ∧ ∀ {β : Type} {f : CondPred → P β} {b : β} {r : List STok}, First None' (f ⟨t, false, []⟩) R b r →
    First None' (tok .LPAREN >>= fun _ => condPredicate (env B M) >>= fun c => tok .RPAREN >>= fun _ => f c) (w ++ R) b r := by
  obtain ⟨_, _, rfl, ⟨x, rfl, hx⟩, u, _, rfl, hu, ⟨y, rfl, hy⟩⟩ := h
  simp only [List.length_append, List.length_cons, List.length_nil] at hM
  obtain ⟨t, ht, ft⟩ := exp_first (A := A) (B := B) hu (M := M) (by omega) (R := y :: R) (.of hy _ rfl rfl)
  refine ⟨t, ht, fun {β f b r} hf => ?_⟩
  simp only [List.append_assoc, List.cons_append, List.nil_append]
  refine First.bindH (First.tok hx _) (First.bindH (a := ⟨t, false, []⟩) (r1 := y :: R) ?_ (First.bindH (First.tok hy _) hf))
  refine First.bindH ft (First.bindH (a := none) (First.noneE (bind_nil (tok_neg (by rw [hy]; decide) R))) (First.bindH (a := [])
    (First.of_eq (many_none (bind_nil (tok_neg (by rw [hy]; decide) R)))) (First.ret _ _)))

theorem else_none {E : Env} {F : P Stm} {R : List STok} (hR : ∀ y s, R = y :: s → y.ty ≠ .KW_ELSE) : First None' (elseBranch E F) R none R := by
  refine First.orN (bind_nil (tok_ne hR)) (First.bindH (a := ()) (r1 := R) (First.of_eq ?_) (First.ret _ _))
  cases R with
  | nil => rfl
  | cons y s => show (if _ then _ else _) = _; rw [if_neg (hR y s rfl)]

theorem optExp_first {c : Option SExp} {w : List STok} (h : optToks c w) {M : Nat} (hM : w.length < M) {x : STok} (hx : x.ty = .SEMI) (R : List STok) :
    ∃ t, (t.map (evExp A) = c.map (SExp.eval A) ∧ (optOk c → okOptExp t)) ∧ First None' (opt ((env B M).expression 0)) (w ++ x :: R) t (x :: R) := by
  cases c with
  | none =>
    rw [optToks, Spec.SvLrm.Empty] at h; subst h
    exact ⟨none, ⟨rfl, fun _ => trivial⟩, First.noneE ((expression_eNo B M 0).cons (by rw [hx]; rfl))⟩
  | some e =>
    obtain ⟨t, ht, ft⟩ := exp_first (A := A) (B := B) h hM (R := x :: R) (.of hx _ rfl rfl)
    exact ⟨some t, ⟨by simp [ht.ev], fun h => ht.ok h⟩, First.some ft⟩

/-! ## Statements -/

theorem item_first {M n : Nat} (hF : GoodF A Bs B (statement B C (env B M) n) M n) : ∀ (s : SStm) (w : List STok), s.plain = true → s.Toks w → w.length ≤ n + 1 →
    w.length < M → ∀ R, SEnd s.openIf R → ∃ t, MI A Bs t s ∧ First None' (statementItem B C (env B M) (statement B C (env B M) n)) (w ++ R) t R
  | .null, _, hp, _, _, _, _, _ => by cases hp
  | .label _ _, _, hp, _, _, _, _, _ => by cases hp
  | .assign l o e, w, _, h, _, hM, R, _ => by
    obtain ⟨t, ht, ft⟩ := assign_item (A := A) (Bs := Bs) (B := B) h (M := M) (by omega) R
    exact ⟨t, ht, item_simple ft⟩
  | .timed l t e, w, _, h, _, hM, R, _ => by
    obtain ⟨t, ht, ft⟩ := timed_item (A := A) (Bs := Bs) (B := B) h (M := M) (by omega) R
    exact ⟨t, ht, item_simple ft⟩
  | .nonblocking l t e, w, _, h, _, hM, R, _ => by
    obtain ⟨t, ht, ft⟩ := nonblocking_item (A := A) (Bs := Bs) (B := B) h (M := M) (by omega) R
    exact ⟨t, ht, item_simple ft⟩
  | .incDec pre inc l, w, _, h, _, hM, R, _ => by
    obtain ⟨t, ht, ft⟩ := incDec_item (A := A) (Bs := Bs) (B := B) h (M := M) (by omega) R
    exact ⟨t, ht, item_simple ft⟩
  | .call p, w, _, h, _, hM, R, _ => by
    obtain ⟨t, ht, ft⟩ := call_item (A := A) (Bs := Bs) (B := B) h (M := M) (by omega) R
    exact ⟨t, ht, item_simple ft⟩
  | .voidCall e, w, _, h, _, hM, R, _ => by
    rw [SStm.Toks] at h
    obtain ⟨_, _, rfl, ⟨x, rfl, hx⟩, _, _, rfl, ⟨y, rfl, hy⟩, u, _, rfl, hu, ⟨z, rfl, hz⟩⟩ := h
    simp only [List.length_append, List.length_cons, List.length_nil] at hM
    obtain ⟨t, ht, ft⟩ := parExpr_first (A := A) (B := B) hu (M := M) (by omega) (z :: R)
    refine ⟨.voidCall t, ⟨?_, ?_, fun _ => rfl, rfl, fun _ => rfl, rfl, fun _ _ e => by first | rfl | cases e⟩, item_sub (by rintro _ _ ⟨⟩; rw [hx]; rfl) ?_⟩
    · rw [evItem, SStm.eval, ht.ev]
    · intro h; rw [SStm.Ok] at h; rw [okItem]; exact ht.ok h
    · simp only [List.append_assoc, List.cons_append, List.nil_append]
      exact First.bindH (First.tok hx _) (First.bindH (First.tok hy _) (First.bindH ft (First.bindH (First.tok hz _) (First.ret _ _))))
  | .case u k e c l, w, _, h, hk, hM, R, _ => by
    rw [SStm.Toks] at h
    obtain ⟨a, _, rfl, ha, _, _, rfl, ⟨x, rfl, hx⟩, p, _, rfl, hp, v, _, rfl, hv, q, _, rfl, hq, ⟨z, rfl, hz⟩⟩ := h
    simp only [List.length_append, List.length_cons, List.length_nil] at hk hM
    have hne := case_nonempty hv
    obtain ⟨te, he, fe⟩ := parExpr_first (A := A) (B := B) hp (M := M) (by omega) (v ++ (q ++ z :: R))
    obtain ⟨tc, hc, fc⟩ := caseItem_first hF hv (by omega) (by omega) (cases_send hq hz R)
    obtain ⟨ts, ⟨h1, h2, h3, h4⟩, fts⟩ := cases_first hF hz R l q hq (by omega) (by omega)
    refine ⟨.case u k te (tc :: ts), ⟨?_, ?_, fun _ => rfl, rfl, fun _ => rfl, rfl, fun _ _ e => by first | rfl | cases e⟩, item_case ?_ ?_⟩
    · rw [evItem, SStm.eval, hc.vals, hc.dflt, h1, h2, he.ev]
    · intro h; rw [SStm.Ok] at h; rw [okItem]
      refine ⟨he.ok h.1, hc.ok _ h.2.1 (h3 h.2.2.1), ?_⟩
      have := h.2.2.2
      rw [List.filter_cons] at this ⊢
      rw [hc.isDflt]
      split <;> rename_i h5 <;> simp only [h5, if_true, if_false, Bool.false_eq_true, List.length_cons] at this ⊢ <;> omega
    · rcases u with _ | ⟨_ | _ | _⟩ <;> rw [uniqToks] at ha
      · rw [Spec.SvLrm.Empty] at ha; subst ha; rintro _ _ ⟨⟩; rw [hx]; exact (caseTy_head k).1
      all_goals obtain ⟨y, rfl, hy⟩ := ha; rintro _ _ ⟨⟩; rw [hy]; rfl
    · simp only [List.append_assoc, List.cons_append, List.nil_append]
      refine First.bindH (uniq_first ha (by rw [hx]; exact caseTy_head k) _) (First.bindH (a := .case u k te (tc :: ts)) (r1 := z :: R) (First.orN ?_ ?_)
        (First.bindH (First.tok hz _) (First.ret _ _)))
      · refine List.eq_nil_iff_forall_not_mem.2 fun y hy => ?_
        obtain ⟨_, r, h5, h6⟩ := mem_bind.1 hy
        obtain ⟨y', e', -⟩ := mem_tok.1 h5
        cases e'
        obtain ⟨b, r, h7, h8⟩ := mem_bind.1 h6
        have := parExpr_all hp (case_special hv _) M _ h7
        simp only at this
        subst this
        exact nil_mem h8 (bind_nil (tok_ne (case_ne hv rfl (by decide) _)))
      · refine First.bindH (caseKw_first hx _) (First.bindH fe (First.orN (bind_nil (tok_ne (case_ne hv rfl (by decide) _))) ?_))
        refine First.bindH (a := tc :: ts) (r1 := z :: R) ?_ (First.ret _ _)
        exact First.bindH fc (First.bindH (First.many (fts _ (by simp))) (First.ret _ _))
  | .ite c t, w, _, h, hk, hM, R, hR => by
    rw [SStm.Toks] at h
    obtain ⟨_, _, rfl, ⟨x, rfl, hx⟩, u, v, rfl, hu, hv⟩ := h
    simp only [List.length_append, List.length_cons, List.length_nil] at hk hM
    obtain ⟨te, he, fe⟩ := cond_first (A := A) (B := B) hu (M := M) (by omega) (v ++ R)
    obtain ⟨ts, hs, fs⟩ := hF t v hv (by omega) R (SEnd.weak hR)
    refine ⟨.if_ none ⟨te, false, []⟩ ts, ⟨?_, ?_, fun _ => rfl, rfl, fun _ => rfl, rfl, fun _ _ e => by first | rfl | cases e⟩, item_cond (by rintro _ _ ⟨⟩; rw [hx]; rfl) ?_⟩
    · rw [evItem, SStm.eval, evCondPred, hs.ev]; simp only [he.ev]
    · intro h; rw [SStm.Ok] at h; rw [okItem]; exact ⟨rfl, ⟨rfl, rfl, he.ok h.1⟩, hs.ok h.2⟩
    · simp only [List.append_assoc, List.cons_append, List.nil_append]
      refine First.bindH (a := none) (First.noneE (toks_neg ?_ _)) (First.bindH (First.tok hx _) (fe (First.bindH fs (First.bindH (else_none fun y s e => (hR y s e).2 rfl) (First.ret _ _)))))
      intro a; rw [hx]; simp
  | .iteElse c t f, w, _, h, hk, hM, R, hR => by
    rw [SStm.Toks] at h
    obtain ⟨ho, _, _, rfl, ⟨x, rfl, hx⟩, u, _, rfl, hu, v, _, rfl, hv, _, z, rfl, ⟨y, rfl, hy⟩, hz⟩ := h
    simp only [List.length_append, List.length_cons, List.length_nil] at hk hM
    obtain ⟨te, he, fe⟩ := cond_first (A := A) (B := B) hu (M := M) (by omega) (v ++ y :: (z ++ R))
    obtain ⟨ts, hs, fs⟩ := hF t v hv (by omega) (y :: (z ++ R)) (by rw [ho]; rintro _ _ ⟨⟩; rw [hy]; exact ⟨by decide, by simp⟩)
    obtain ⟨tf, hf, ff⟩ := hF f z hz (by omega) R hR
    refine ⟨.ifElse none ⟨te, false, []⟩ ts tf, ⟨?_, ?_, fun _ => rfl, rfl, fun _ => rfl, rfl, fun _ _ e => by first | rfl | cases e⟩, item_cond (by rintro _ _ ⟨⟩; rw [hx]; rfl) ?_⟩
    · rw [evItem, SStm.eval, evCondPred, hs.ev, hf.ev]; simp only [he.ev]
    · intro h; rw [SStm.Ok] at h; rw [okItem]
      exact ⟨rfl, ⟨rfl, rfl, he.ok h.1⟩, hs.ok h.2.1, hf.ok h.2.2.1, by rw [hf.labIf]; exact h.2.2.2⟩
    · simp only [List.append_assoc, List.cons_append, List.nil_append]
      refine First.bindH (a := none) (First.noneE (toks_neg ?_ _)) (First.bindH (First.tok hx _) (fe (First.bindH fs (First.bindH (a := some tf)
        (First.orL (First.bindH (First.tok hy _) (First.bindH ff (First.ret _ _)))) (First.ret _ _)))))
      intro a; rw [hx]; simp
  | .forever b, w, _, h, hk, hM, R, hR => by
    rw [SStm.Toks] at h
    obtain ⟨_, v, rfl, ⟨x, rfl, hx⟩, hv⟩ := h
    simp only [List.length_append, List.length_cons, List.length_nil] at hk hM
    obtain ⟨ts, hs, fs⟩ := hF b v hv (by omega) R hR
    refine ⟨.forever ts, ⟨?_, ?_, fun _ => rfl, rfl, fun _ => rfl, rfl, fun _ _ e => by first | rfl | cases e⟩, item_loop (by rintro _ _ ⟨⟩; rw [hx]; rfl) ?_⟩
    · rw [evItem, SStm.eval, hs.ev]
    · intro h; rw [SStm.Ok] at h; rw [okItem]; exact hs.ok h
    · exact First.orL (First.bindH (First.orL (First.bindH (First.tok hx _) (First.ret _ _))) (First.bindH fs (First.ret _ _)))
  | .repeat_ e b, w, _, h, hk, hM, R, hR => by
    rw [SStm.Toks] at h
    obtain ⟨_, _, rfl, ⟨x, rfl, hx⟩, u, v, rfl, hu, hv⟩ := h
    simp only [List.length_append, List.length_cons, List.length_nil] at hk hM
    obtain ⟨te, he, fe⟩ := parExpr_first (A := A) (B := B) hu (M := M) (by omega) (v ++ R)
    obtain ⟨ts, hs, fs⟩ := hF b v hv (by omega) R hR
    refine ⟨.repeat_ te ts, ⟨?_, ?_, fun _ => rfl, rfl, fun _ => rfl, rfl, fun _ _ e => by first | rfl | cases e⟩, item_loop (by rintro _ _ ⟨⟩; rw [hx]; rfl) ?_⟩
    · rw [evItem, SStm.eval, hs.ev, he.ev]
    · intro h; rw [SStm.Ok] at h; rw [okItem]; exact ⟨he.ok h.1, hs.ok h.2⟩
    · simp only [List.append_assoc, List.cons_append, List.nil_append]
      refine First.orL (First.bindH (a := StmItem.repeat_ te) (First.orN (bind_nil (tok_neg (by rw [hx]; decide) _)) (First.orL (First.bindH (a := StmItem.repeat_) (First.of_eq ?_)
        (First.bindH fe (First.ret _ _))))) (First.bindH fs (First.ret _ _)))
      rw [P.toks, alts_apply]; simp [bind_apply, tok_cons, hx, pure_apply]
  | .while_ e b, w, _, h, hk, hM, R, hR => by
    rw [SStm.Toks] at h
    obtain ⟨_, _, rfl, ⟨x, rfl, hx⟩, u, v, rfl, hu, hv⟩ := h
    simp only [List.length_append, List.length_cons, List.length_nil] at hk hM
    obtain ⟨te, he, fe⟩ := parExpr_first (A := A) (B := B) hu (M := M) (by omega) (v ++ R)
    obtain ⟨ts, hs, fs⟩ := hF b v hv (by omega) R hR
    refine ⟨.while_ te ts, ⟨?_, ?_, fun _ => rfl, rfl, fun _ => rfl, rfl, fun _ _ e => by first | rfl | cases e⟩, item_loop (by rintro _ _ ⟨⟩; rw [hx]; rfl) ?_⟩
    · rw [evItem, SStm.eval, hs.ev, he.ev]
    · intro h; rw [SStm.Ok] at h; rw [okItem]; exact ⟨he.ok h.1, hs.ok h.2⟩
    · simp only [List.append_assoc, List.cons_append, List.nil_append]
      refine First.orL (First.bindH (a := StmItem.while_ te) (First.orN (bind_nil (tok_neg (by rw [hx]; decide) _)) (First.orL (First.bindH (a := StmItem.while_) (First.of_eq ?_)
        (First.bindH fe (First.ret _ _))))) (First.bindH fs (First.ret _ _)))
      rw [P.toks, alts_apply]; simp [bind_apply, tok_cons, hx, pure_apply]
  | .doWhile b e, w, _, h, hk, hM, R, hR => by
    rw [SStm.Toks] at h
    obtain ⟨_, _, rfl, ⟨x, rfl, hx⟩, v, _, rfl, hv, _, _, rfl, ⟨y, rfl, hy⟩, u, _, rfl, hu, ⟨z, rfl, hz⟩⟩ := h
    simp only [List.length_append, List.length_cons, List.length_nil] at hk hM
    obtain ⟨te, he, fe⟩ := parExpr_first (A := A) (B := B) hu (M := M) (by omega) (z :: R)
    obtain ⟨ts, hs, fs⟩ := hF b v hv (by omega) (y :: (u ++ z :: R)) (.of hy _ (by decide))
    refine ⟨.doWhile ts te, ⟨?_, ?_, fun _ => rfl, rfl, fun _ => rfl, rfl, fun _ _ e => by first | rfl | cases e⟩, item_loop (by rintro _ _ ⟨⟩; rw [hx]; rfl) ?_⟩
    · rw [evItem, SStm.eval, hs.ev, he.ev]
    · intro h; rw [SStm.Ok] at h; rw [okItem]; exact ⟨hs.ok h.1, he.ok h.2⟩
    · simp only [List.append_assoc, List.cons_append, List.nil_append]
      refine First.orN (bind_nil ?_) (First.orL (First.bindH (First.tok hx _) (First.bindH fs (First.bindH (First.tok hy _) (First.bindH fe (First.bindH (First.tok hz _) (First.ret _ _)))))))
      rw [loopHead, alts_apply]
      simp [bind_apply, tok_cons, hx, P.toks, alts_apply]
  | .for_ i c s b, w, _, h, hk, hM, R, hR => by
    rw [SStm.Toks] at h
    obtain ⟨_, _, rfl, ⟨x, rfl, hx⟩, _, _, rfl, ⟨y, rfl, hy⟩, wi, _, rfl, hi, _, _, rfl, ⟨z1, rfl, hz1⟩, wc, _, rfl, hc, _, _, rfl, ⟨z2, rfl, hz2⟩, ws, _, rfl, hs, _, v, rfl,
      ⟨z3, rfl, hz3⟩, hv⟩ := h
    simp only [List.length_append, List.length_cons, List.length_nil] at hk hM
    obtain ⟨ti, mi, fi⟩ := init_first (A := A) (Bs := Bs) (B := B) hi (M := M) (by omega) hz1 (wc ++ z2 :: (ws ++ z3 :: (v ++ R)))
    obtain ⟨tc, ⟨mc1, mc2⟩, fc⟩ := optExp_first (A := A) (B := B) hc (M := M) (by omega) hz2 (ws ++ z3 :: (v ++ R))
    obtain ⟨ts, ⟨ms1, ms2⟩, fs⟩ := steps_first (A := A) (Bs := Bs) (B := B) hs (M := M) (by omega) hz3 (v ++ R)
    obtain ⟨tb, mb, fb⟩ := hF b v hv (by omega) R hR
    refine ⟨.for_ ti tc (ts.getD []) tb, ⟨?_, ?_, fun _ => rfl, rfl, fun _ => rfl, rfl, fun _ _ e => by first | rfl | cases e⟩, item_loop (by rintro _ _ ⟨⟩; rw [hx]; rfl) ?_⟩
    · rw [evItem, SStm.eval, mi.ev, mc1, ms1, mb.ev]
    · intro h; rw [SStm.Ok] at h; rw [okItem]; exact ⟨mi.ok h.1, mc2 h.2.1, ms2 h.2.2.1, mb.ok h.2.2.2⟩
    · simp only [List.append_assoc, List.cons_append, List.nil_append]
      refine First.orL (First.bindH (a := StmItem.for_ ti tc (ts.getD [])) (r1 := v ++ R) (First.orN (bind_nil (tok_neg (by rw [hx]; decide) _)) (First.orN (bind_nil ?_) ?_))
        (First.bindH fb (First.ret _ _)))
      · rw [P.toks, alts_apply]; simp [bind_apply, tok_cons, hx]
      · refine First.bindH (First.tok hx _) (First.bindH (First.tok hy _) (First.bindH fi (First.bindH (First.tok hz1 _) (First.bindH fc (First.bindH (First.tok hz2 _)
          (First.head fs (First.bindH (First.tok hz3 _) (First.ret _ _)) ?_))))))
        intro c s hs
        exact bind_nil (tok_ne fun y r e => (hs y r e).2)
  | .ret e, w, _, h, hk, hM, R, hR => by
    rw [SStm.Toks] at h
    obtain ⟨_, _, rfl, ⟨x, rfl, hx⟩, u, _, rfl, hu, ⟨z, rfl, hz⟩⟩ := h
    simp only [List.length_append, List.length_cons, List.length_nil] at hk hM
    obtain ⟨tc, ⟨mc1, mc2⟩, fc⟩ := optExp_first (A := A) (B := B) hu (M := M) (by omega) hz R
    refine ⟨.return_ tc, ⟨?_, ?_, fun _ => rfl, rfl, fun _ => rfl, rfl, fun _ _ e => by first | rfl | cases e⟩, item_jump (by rintro _ _ ⟨⟩; rw [hx]; rfl) ?_⟩
    · rw [evItem, SStm.eval, mc1]
    · intro h; rw [SStm.Ok] at h; rw [okItem]; exact mc2 h
    · simp only [List.append_assoc, List.cons_append, List.nil_append]
      exact First.bindH (a := .return_ tc) (First.orL (First.bindH (First.tok hx _) (First.bindH fc (First.ret _ _)))) (First.bindH (First.tok hz _) (First.ret _ _))
  | .break_, w, _, h, hk, hM, R, hR => by
    rw [SStm.Toks] at h
    obtain ⟨_, _, rfl, ⟨x, rfl, hx⟩, ⟨z, rfl, hz⟩⟩ := h
    refine ⟨.break_, ⟨by rw [evItem, SStm.eval], fun _ => by rw [okItem]; trivial, fun _ => rfl, rfl, fun _ => rfl, rfl, fun _ _ e => by first | rfl | cases e⟩, item_jump (by rintro _ _ ⟨⟩; rw [hx]; rfl) ?_⟩
    exact First.bindH (a := .break_) (First.orN (bind_nil (tok_neg (by rw [hx]; decide) _)) (First.orL (First.bindH (First.tok hx _) (First.ret _ _))))
      (First.bindH (First.tok hz _) (First.ret _ _))
  | .continue_, w, _, h, hk, hM, R, hR => by
    rw [SStm.Toks] at h
    obtain ⟨_, _, rfl, ⟨x, rfl, hx⟩, ⟨z, rfl, hz⟩⟩ := h
    refine ⟨.continue_, ⟨by rw [evItem, SStm.eval], fun _ => by rw [okItem]; trivial, fun _ => rfl, rfl, fun _ => rfl, rfl, fun _ _ e => by first | rfl | cases e⟩, item_jump (by rintro _ _ ⟨⟩; rw [hx]; rfl) ?_⟩
    exact First.bindH (a := .continue_) (First.orN (bind_nil (tok_neg (by rw [hx]; decide) _)) (First.orN (bind_nil (tok_neg (by rw [hx]; decide) _)) (First.bindH (First.tok hx _) (First.ret _ _))))
      (First.bindH (First.tok hz _) (First.ret _ _))
  | .block nm l e, w, _, h, hk, hM, R, hR => by
    rw [SStm.Toks] at h
    obtain ⟨_, _, rfl, ⟨x, rfl, hx⟩, u, _, rfl, hu, v, _, rfl, hv, _, z, rfl, ⟨y, rfl, hy⟩, hz⟩ := h
    simp only [List.length_append, List.length_cons, List.length_nil] at hk hM
    have hb : BlockEnd (y :: (z ++ R)) := ⟨y, _, rfl, by rw [hy]; decide, by rw [hy]; decide⟩
    obtain ⟨ts, ⟨hev, hok⟩, fts⟩ := stms_first hF l v hv (by omega) _ hb
    refine ⟨.seq nm [] ts e, ⟨?_, ?_, fun _ => rfl, ?_, fun _ => rfl, rfl, fun _ _ e => by first | rfl | cases e⟩, item_seq (by rintro _ _ ⟨⟩; rw [hx]; rfl) ?_⟩
    · rw [evItem, SStm.eval, hev]; cases nm <;> rfl
    · intro h; rw [SStm.Ok] at h; rw [okItem]; exact ⟨h.1, by simp, hok h.2⟩
    · cases nm <;> rfl
    · simp only [List.append_assoc, List.cons_append, List.nil_append]
      refine First.bindH (First.tok hx _) (First.bindH (blockLabel_first hu fun y s e => (stms_send (o := true) hv hb y s e).1) (First.bindH (a := [])
        (First.of_eq (many_none (stms_decl hv hb M))) (First.bindH (First.many (fts _ (by simp))) (First.bindH (First.tok hy _)
        (First.bindH (blockLabel_first hz fun y s e => (hR y s e).1) (First.ret _ _))))))
  | .fork nm l j e, w, _, h, hk, hM, R, hR => by
    rw [SStm.Toks] at h
    obtain ⟨_, _, rfl, ⟨x, rfl, hx⟩, u, _, rfl, hu, v, _, rfl, hv, _, z, rfl, ⟨y, rfl, hy⟩, hz⟩ := h
    simp only [List.length_append, List.length_cons, List.length_nil] at hk hM
    have hb : BlockEnd (y :: (z ++ R)) := ⟨y, _, rfl, (join_end hy).1, (join_end hy).2⟩
    obtain ⟨ts, ⟨hev, hok⟩, fts⟩ := stms_first hF l v hv (by omega) _ hb
    refine ⟨.par nm [] ts j e, ⟨?_, ?_, fun _ => rfl, rfl, fun _ => rfl, rfl, fun _ _ e => by first | rfl | cases e⟩, item_par (by rintro _ _ ⟨⟩; rw [hx]; rfl) ?_⟩
    · rw [evItem, SStm.eval, hev]; cases nm <;> rfl
    · intro h; rw [SStm.Ok] at h; rw [okItem]; exact ⟨h.1, by simp, hok h.2⟩
    · simp only [List.append_assoc, List.cons_append, List.nil_append]
      refine First.bindH (First.tok hx _) (First.bindH (blockLabel_first hu fun y s e => (stms_send (o := true) hv hb y s e).1) (First.bindH (a := [])
        (First.of_eq (many_none (stms_decl hv hb M))) (First.bindH (First.many (fts _ (by simp))) (First.bindH (join_first hy _)
        (First.bindH (blockLabel_first hz fun y s e => (hR y s e).1) (First.ret _ _))))))
  | .timing t b, w, _, h, hk, hM, R, hR => by
    rw [SStm.Toks] at h
    obtain ⟨u, v, rfl, hu, hv, hh⟩ := h
    obtain ⟨x, s, rfl, hx⟩ := timing_head hu
    simp only [List.length_append, List.length_cons] at hk hM
    have hE : TEnd t.isName (v ++ R) := by
      refine ⟨stm_ne hv rfl rfl R, fun hn y r e => ⟨?_, stm_ne hv rfl rfl R y r e, stm_ne hv rfl rfl R y r e, stm_ne hv rfl rfl R y r e⟩⟩
      have := stm_nonempty hv
      cases v with
      | nil => exact (this rfl).elim
      | cons a v => cases e; exact hh hn _ _ rfl
    obtain ⟨tt, mt, ft⟩ := timingControl_first (A := A) (Bs := Bs) (B := B) hu (M := M) (by simp only [List.length_cons]; omega) hE
    obtain ⟨tb, mb, fb⟩ := hF b v hv (by omega) R hR
    refine ⟨.timing tt tb, ⟨mt.ev tb _ b rfl mb.ev.symm, mt.ok tb b mb.ok mb.labBlock, fun _ => rfl, rfl, fun _ => rfl, rfl, fun _ _ e => by first | rfl | cases e⟩, item_timing ?_ ?_⟩
    · rintro _ _ ⟨⟩; rcases hx with h | h <;> rw [h] <;> rfl
    · rw [List.append_assoc]
      exact First.bindH ft (First.bindH fb (First.ret _ _))

/-- A statement in front of which the rule `statement` is called. -/
theorem stm_succ {M n : Nat} (hn : n + 1 < M) (hF : GoodF A Bs B (statement B C (env B M) n) M n) : GoodF A Bs B (statement B C (env B M) (n + 1)) M (n + 1) := by
  intro s w h hk R hR
  by_cases hp : s.plain = true
  · obtain ⟨t, ht, ft⟩ := item_first (C := C) hF s w hp h hk (by omega) R hR
    have hl : s.labIf = false := by cases s <;> first | rfl | cases hp
    have hb : s.labBlock = s.named := by cases s <;> first | rfl | cases hp
    refine ⟨.stm (.mk none t), ⟨?_, ?_, ?_, ?_, ht.fork⟩, First.orL (First.bindH (a := .mk none t) ?_ (First.ret _ _))⟩
    · rw [evStmN, evStm, ← ht.ev]; rfl
    · intro h; rw [okStmN, okStm]; exact ⟨trivial, ht.ok h⟩
    · rw [hl]; cases t <;> rfl
    · rw [hb, ht.named]
    · exact First.bindH (a := none) (First.noneE (stm_label hp h R)) (First.bindH (a := []) (First.of_eq (stm_attributes h _ R)) (First.bindH ft (First.ret _ _)))
  · cases s with
    | null =>
      rw [SStm.Toks] at h
      obtain ⟨x, rfl, hx⟩ := h
      refine ⟨.semi, ⟨by rw [evStmN, SStm.eval], fun _ => by rw [okStmN]; trivial, rfl, rfl, rfl⟩, First.orN (bind_nil (statement_end M _ (by rw [hx]; decide) R)) ?_⟩
      exact First.bindH (a := []) (First.of_eq (attributes_ne (by rw [hx]; decide))) (First.bindH (First.tok hx _) (First.ret _ _))
    | label i s =>
      rw [SStm.Toks] at h
      obtain ⟨hp, _, _, rfl, ⟨x, rfl, hx⟩, _, v, rfl, ⟨y, rfl, hy⟩, hv⟩ := h
      simp only [List.length_append, List.length_cons, List.length_nil] at hk
      obtain ⟨t, ht, ft⟩ := item_first (C := C) hF s v hp hv (by omega) (by omega) R hR
      refine ⟨.stm (.mk (some i) t), ⟨?_, ?_, ?_, ?_, ht.fork⟩, First.orL (First.bindH (a := .mk (some i) t) ?_ (First.ret _ _))⟩
      · rw [evStmN, evStm, SStm.eval, ← ht.ev]; rfl
      · intro h; rw [SStm.Ok] at h; rw [okStmN, okStm]; exact ⟨h.1, ht.ok h.2⟩
      · exact ht.isIf i
      · exact ht.block i
      · exact First.bindH (a := some i) (First.some (First.bindH (identifier_first hx _) (First.bindH (First.tok hy _) (First.ret _ _))))
          (First.bindH (a := []) (First.of_eq (stm_attributes hv _ R)) (First.bindH ft (First.ret _ _)))
    | _ => exact (hp rfl).elim

theorem good_stm (M : Nat) : ∀ n, n < M → GoodF A Bs B (statement B C (env B M) n) M n
  | 0, _ => fun s w h hk R _ => by
    have := stm_nonempty h
    simp only [Nat.le_zero, List.length_eq_zero_iff] at hk
    exact (this hk).elim
  | n + 1, hn => stm_succ hn (good_stm M n (by omega))

end Verif.Sv
