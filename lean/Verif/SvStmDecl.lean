import Verif.SvStmItem
/-!
# SystemVerilog statements are no declarations, and other facts on the beginning of a statement
-/
namespace Verif.Sv
open P Verif.Spec.SvLrm Verif.Spec.Sv

variable {V S : Type} {A : Alg V} {Bs : SAlg V S} {B : Rules}

theorem nil_mem {α : Type} {q : List α} {x : α} (hx : x ∈ q) (h : q = []) : False := by rw [h] at hx; cases hx

/-! ## Brackets -/

theorem scan_special {S : ST → Bool} {x : STok} {v : List STok} {d q d' q' : Nat} (h : scan S (.run d q) (x :: v) = some (.run d' q')) :
    isSpecial x.ty = false := by
  cases hx : isSpecial x.ty with
  | false => rfl
  | true =>
    rw [scan_cons (s' := .free) (by rw [scan1, hx]; rfl), scan_free] at h
    cases h

theorem exp_special {e : SExp} {w : List STok} (h : e.Toks w) (R : List STok) : ∀ y s, w ++ R = y :: s → isSpecial y.ty = false := by
  obtain ⟨y, s, rfl, -⟩ := exp_begins e w h
  intro _ _ e'; cases e'
  exact scan_special (exp_ex (xcfg_dep allS) e _ h 1 0 (by simp [dep]))

theorem parExpr_all {e : SExp} {w Q : List STok} (h : inParens e.Toks w) (hQ : ∀ y s, Q = y :: s → isSpecial y.ty = false) (M : Nat) :
    ∀ x ∈ parExpr (env B M) (w ++ Q), x.2 = Q := by
  obtain ⟨_, _, rfl, ⟨o, rfl, ho⟩, u, _, rfl, hu, ⟨c, rfl, hc⟩⟩ := h
  simp only [List.append_assoc, List.cons_append]
  rintro x hx
  obtain ⟨a, r, h1, h2⟩ := mem_bind.1 hx
  rw [tok_pos ho] at h1
  simp only [List.mem_singleton] at h1
  cases h1
  have hk : Snd (KeepIn allS fun _ _ => True) ((env B M).expression 0 >>= fun e => tok .RPAREN >>= fun _ => pure e) :=
    in_keep ((brk_env B allS M).expression 0) fun _ => close_keep rfl fun _ => ret_keep _
  obtain ⟨v, e1, hv⟩ := hk _ _ h2
  exact cut_in (exp_ex (xcfg_dep allS) e u hu) (by rw [hc]; rfl) hQ (hv 0 0 trivial) e1

/-! ## Behind a name -/

/-- No declaration goes on here. -/
inductive Bd : List STok → Prop
  | stop {r : List STok} : (∀ y s, r = y :: s → isIdTok y.ty = false ∧ y.ty ≠ .LSQUARE_BR ∧ y.ty ≠ .HASH) → Bd r
  | dim {o c : STok} {u r : List STok} : o.ty = .LSQUARE_BR → Ex allS dep u → isClose c.ty = true → (∀ y s, r = y :: s → isSpecial y.ty = false) → Bd r →
    Bd (o :: (u ++ c :: r))

theorem Bd.ne {r : List STok} (h : Bd r) : ∀ y s, r = y :: s → isIdTok y.ty = false ∧ y.ty ≠ .HASH := by
  cases h with
  | stop h => exact fun y s e => ⟨(h y s e).1, (h y s e).2.2⟩
  | dim h1 h2 h3 h4 h5 => intro y s e; cases e; rw [h1]; exact ⟨rfl, by decide⟩

theorem Bd.id {r : List STok} (h : Bd r) : identifier r = [] := identifier_no r fun y s e => by simp [(h.ne y s e).1]

/-- What holds before holds after. -/
def Pres (Q : List STok → Prop) (ts r : List STok) : Prop := Q ts → Q r
theorem pres_rel (Q : List STok → Prop) : Rel (Pres Q) := ⟨fun _ h => h, fun _ _ _ h1 h2 h => h2 (h1 h)⟩

theorem dim_bd (B : Rules) (M : Nat) : Snd (Pres Bd) (variableDimension (env B M)) := by
  rintro ts x hx h
  obtain ⟨a, r, h1, h2⟩ := mem_bind.1 hx
  cases h with
  | stop h =>
    rw [tok_ne fun y s e => (h y s e).2.1] at h1; cases h1
  | dim ho hu hc hr hb =>
    rw [tok_pos ho] at h1
    simp only [List.mem_singleton] at h1
    cases h1
    have hk : Snd (KeepIn allS fun _ _ => True) (opt (alts [tok .MUL >>= fun _ => pure VDim.star, (env B M).dataType >>= fun t => pure (.type t),
        arrayRange (env B M) >>= fun r => pure (.range r)]) >>= fun d => tok .RSQUARE_BR >>= fun _ => pure (d.getD .empty)) := by
      refine in_keep (opt_keep ?_) fun _ => close_keep rfl fun _ => ret_keep _
      alt_cases
      exact ⟨map_keep (tok_keep (dep_ok _ rfl rfl)) _, map_keep (brk_env B allS M).dataType _, map_keep (arrayRange_dep (brk_env B allS M)) _, by simp⟩
    obtain ⟨v, e1, hv⟩ := hk _ _ h2
    rw [cut_in hu hc hr (hv 0 0 trivial) e1]
    exact hb

/-- `:: j :: k ...` and the rest. -/
def Ids (r : List STok) : Prop := ∃ l v R, r = v ++ R ∧ idsToks l v ∧ Bd R ∧ ∀ y s, R = y :: s → y.ty ≠ .DOUBLE_COLON

theorem Ids.bd {r : List STok} (h : Ids r) : Bd r := by
  obtain ⟨l, v, R, rfl, hl, hR, -⟩ := h
  cases l with
  | nil => rw [idsToks, Spec.SvLrm.Empty] at hl; subst hl; exact hR
  | cons j l =>
    rw [idsToks] at hl
    obtain ⟨_, _, rfl, ⟨x, rfl, hx⟩, -⟩ := hl
    refine .stop ?_
    intro _ _ e; cases e; rw [hx]; decide

theorem ident_rest {ts : List STok} {x : Ident × List STok} (h : x ∈ identifier ts) : ∃ y, ts = y :: x.2 := by
  have : Snd (fun ts r => ∃ y, ts = y :: r) identifier := by
    have h1 : ∀ (t : ST) (f : Str → Ident), Snd (fun ts r => ∃ y, ts = y :: r) (tok t >>= fun a => pure (f a)) := by
      intro t f ts x hx
      obtain ⟨a, r, h1, h2⟩ := mem_bind.1 hx
      obtain ⟨y, e, -⟩ := mem_tok.1 h1
      rw [mem_pure] at h2; subst h2; exact ⟨y, e⟩
    refine Snd.or (h1 _ _) (Snd.or (h1 _ _) (Snd.or (h1 _ _) ?_))
    intro ts x hx
    obtain ⟨a, r, h1, h2⟩ := mem_bind.1 hx
    rw [mem_pure] at h2; subst h2
    obtain ⟨p, hp, h3⟩ := mem_alts.1 h1
    obtain ⟨t, -, rfl⟩ := List.mem_map.1 hp
    obtain ⟨y, e, -⟩ := mem_tok.1 h3
    exact ⟨y, e⟩
  exact this _ _ h

theorem pathItem_rest {E : Env} {y : STok} {r : List STok} (h : ∀ z s, r = z :: s → z.ty ≠ .HASH) : ∀ x ∈ pathItem E (y :: r), x.2 = r := by
  rintro x hx
  obtain ⟨a, r1, h1, h2⟩ := mem_bind.1 hx
  obtain ⟨z, e⟩ := ident_rest h1
  simp only [List.cons.injEq] at e
  obtain ⟨-, rfl⟩ := e
  obtain ⟨b, r2, h3, h4⟩ := mem_bind.1 h2
  rw [mem_pure] at h4; subst h4
  obtain ⟨c, r3, h5, h6⟩ := mem_bind.1 h3
  rw [mem_pure] at h6; cases h6
  have h7 : parameterValueAssignment E r = [] := bind_nil (tok_ne h)
  rw [opt_none h7] at h5
  simp only [List.mem_singleton] at h5
  cases h5; rfl

theorem ids_pres (E : Env) : Snd (Pres Ids) (tok .DOUBLE_COLON >>= fun _ => pathItem E) := by
  rintro ts x hx ⟨l, v, R, rfl, hl, hR, hd⟩
  obtain ⟨a, r, h1, h2⟩ := mem_bind.1 hx
  cases l with
  | nil =>
    rw [idsToks, Spec.SvLrm.Empty] at hl; subst hl
    rw [List.nil_append, tok_ne hd] at h1; cases h1
  | cons j l =>
    rw [idsToks] at hl
    obtain ⟨_, _, rfl, ⟨x', rfl, hx'⟩, _, v, rfl, ⟨y, rfl, hy⟩, hv⟩ := hl
    simp only [List.append_assoc, List.cons_append] at h1
    rw [tok_pos hx'] at h1
    simp only [List.mem_singleton] at h1
    cases h1
    have hi : Ids (v ++ R) := ⟨l, v, R, rfl, hv, hR, hd⟩
    rw [pathItem_rest (fun z s e => (hi.bd.ne z s e).2) x h2]
    exact hi

/-- A name, and what follows it. -/
def Named (w : List STok) : Prop := ∃ i x r, w = x :: r ∧ Ident.Tok i x ∧ Ids r ∧ ∀ y s, r = y :: s → y.ty ≠ .COLON

/-- A name, or a label. -/
def NamedOrLabel (w : List STok) : Prop := ∃ i x r, w = x :: r ∧ Ident.Tok i x ∧ Ids r

theorem Named.label {w : List STok} (h : Named w) : NamedOrLabel w := by
  obtain ⟨i, x, r, h1, h2, h3, -⟩ := h
  exact ⟨i, x, r, h1, h2, h3⟩

theorem ident_notPath {i : Ident} {x : STok} (hx : Ident.Tok i x) {t : ST} (ht : isIdTok t = false) : x.ty ≠ t := by
  intro h; have := ident_id hx; rw [h, ht] at this; cases this

theorem path_bd {E : Env} {i : Ident} {x : STok} {r : List STok} (hx : Ident.Tok i x) (hr : Ids r) : ∀ z ∈ path E (x :: r), Bd z.2 := by
  rintro z hz
  obtain ⟨l, r1, h1, h2⟩ := mem_bind.1 hz
  rw [opt_none (bind_nil (tok_neg (ident_notPath hx rfl) _))] at h1
  simp only [List.mem_singleton] at h1
  cases h1
  obtain ⟨h, r2, h3, h4⟩ := mem_bind.1 h2
  obtain ⟨m, r3, h5, h6⟩ := mem_bind.1 h4
  rw [mem_pure] at h6; subst h6
  have hr2 : r2 = r := by
    obtain ⟨p, hp, h7⟩ := mem_alts.1 h3
    simp only [List.mem_cons, List.not_mem_nil, or_false] at hp
    rcases hp with rfl | rfl | rfl | rfl
    · rw [bind_nil (tok_neg (ident_notPath hx rfl) _)] at h7; cases h7
    · rw [bind_nil ?_] at h7
      · cases h7
      · show (tok .KW_THIS >>= fun _ => _) _ ++ (tok .KW_SUPER >>= fun _ => _) _ = []
        rw [bind_nil (tok_neg (ident_notPath hx rfl) _), bind_nil (tok_neg (ident_notPath hx rfl) _)]; rfl
    · rw [bind_nil (tok_neg (ident_notPath hx rfl) _)] at h7; cases h7
    · obtain ⟨a, r4, h8, h9⟩ := mem_bind.1 h7
      rw [mem_pure] at h9; cases h9
      exact pathItem_rest (fun z s e => (hr.bd.ne z s e).2) _ h8
  subst hr2
  exact (Snd.many (pres_rel Ids) (ids_pres E) _ _ h5 hr).bd

/-- Tokens at the beginning of a data type, but those of names. -/
def typeHead : ST → Bool
  | .KW_STRING | .KW_CHANDLE | .KW_VIRTUAL | .KW_EVENT | .KW_ENUM | .KW_STRUCT | .KW_UNION | .KW_TYPE => true
  | .KW_BIT | .KW_LOGIC | .KW_REG | .KW_BYTE | .KW_SHORTINT | .KW_INT | .KW_LONGINT | .KW_INTEGER | .KW_TIME | .KW_SHORTREAL | .KW_REAL | .KW_REALTIME => true
  | _ => false

theorem id_type {t : ST} (h : isIdTok t = true) : typeHead t = false := by cases t <;> first | rfl | cases h

theorem dataType_bd (M : Nat) {w : List STok} (hw : NamedOrLabel w) : ∀ z ∈ (env B M).dataType w, Bd z.2 := by
  obtain ⟨i, x, r, rfl, hx, hr⟩ := hw
  cases M with
  | zero => intro z hz; cases hz
  | succ M =>
    intro z hz
    have ht : typeHead x.ty = false := id_type (ident_id hx)
    obtain ⟨p, hp, h7⟩ := mem_alts.1 hz
    simp only [List.mem_cons, List.not_mem_nil, or_false] at hp
    have key : ∀ {α : Type} {q : P α}, NoAt (fun t => !typeHead t) q → q (x :: r) = [] := fun hq => hq.cons (by rw [ht]; rfl)
    rcases hp with rfl | rfl | rfl | rfl | rfl | rfl
    · exact (nil_mem h7 (key (.bind (.tok rfl)))).elim
    · exact (nil_mem h7 (key (.bind (.tok rfl)))).elim
    · exact (nil_mem h7 (key (.bind (.tok rfl)))).elim
    · exact (nil_mem h7 (key (.bind (.tok rfl)))).elim
    · obtain ⟨b, r1, h1, h2⟩ := mem_bind.1 h7
      obtain ⟨l, r2, h3, h4⟩ := mem_bind.1 h2
      rw [mem_pure] at h4; subst h4
      refine Snd.many (pres_rel Bd) (dim_bd B M) _ _ h3 ?_
      obtain ⟨p, hp, h8⟩ := mem_alts.1 h1
      simp only [List.mem_cons, List.not_mem_nil, or_false] at hp
      rcases hp with rfl | rfl | rfl | rfl
      · refine (nil_mem h8 (key (.bind ?_))).elim
        · noat_alts
          exact ⟨.bind (.texts (by decide)), .bind (.texts (by decide)), .bind (.texts (by decide)), by simp⟩
      · exact (nil_mem h8 (key (.bind (.tok rfl)))).elim
      · exact (nil_mem h8 (key (.bind (.texts (by decide))))).elim
      · obtain ⟨a, r4, h9, h10⟩ := mem_bind.1 h8
        rw [mem_pure] at h10; cases h10
        exact path_bd hx hr _ h9
    · exact (nil_mem h7 (key (.bind (.bind (.tok rfl))))).elim

/-! ## No declaration -/

/-- No declaration of a block begins with these. -/
def dNo : ST → Bool
  | .SEMI | .KW_IF | .KW_CASE | .KW_CASEZ | .KW_CASEX | .KW_UNIQUE | .KW_UNIQUE0 | .KW_PRIORITY | .KW_FOREVER | .KW_REPEAT | .KW_WHILE | .KW_DO | .KW_FOR
  | .KW_RETURN | .KW_BREAK | .KW_CONTINUE | .KW_BEGIN | .KW_END | .KW_FORK | .KW_JOIN | .KW_JOIN_ANY | .KW_JOIN_NONE | .AT | .HASH | .KW_VOID
  | .LBRACE | .INCR | .DECR | .SYSTEM_TF_IDENTIFIER => true
  | _ => false

theorem dataType_dNo (B : Rules) (n : Nat) : NoAt dNo (env B n).dataType := by
  have hp : NoAt dNo (path (env B (n - 1))) := (path_no _).mono fun t h => by cases t <;> first | rfl | cases h
  cases n with
  | zero => exact .fail
  | succ n =>
    noat_alts
    refine ⟨.bind (.tok rfl), .bind (.tok rfl), .bind (.tok rfl), .bind (.tok rfl), .bind ?_, .bind (.bind (.tok rfl)), by simp⟩
    noat_alts
    refine ⟨.bind ?_, .bind (.tok rfl), .bind (.texts (by decide)), .bind hp, by simp⟩
    noat_alts
    exact ⟨.bind (.texts (by decide)), .bind (.texts (by decide)), .bind (.texts (by decide)), by simp⟩

theorem implicit_no (E : Env) {N : ST → Bool} (h1 : N .KW_SIGNED = false) (h2 : N .KW_UNSIGNED = false) (h3 : N .LSQUARE_BR = false) : NoAt N (implicitDataType E) := by
  refine .or (.bind (.toks ?_)) (.bind (.bind (.bind (.tok h3))))
  simp only [List.forall_mem_cons]
  exact ⟨h1, h2, by simp⟩

theorem lifetime_no {N : ST → Bool} (h1 : N .KW_STATIC = false) (h2 : N .KW_AUTOMATIC = false) : NoAt N lifetime := by
  refine .toks ?_
  simp only [List.forall_mem_cons]
  exact ⟨h1, h2, by simp⟩

theorem flag_no {β : Type} {N : ST → Bool} {t : ST} (h : N t = false) {f : Bool → P β} (hf : NoAt N (f false)) : NoAt N (flag t >>= f) := by
  have : (flag t >>= f) = (opt (tok t) >>= fun o => f o.isSome) := by
    funext ts
    simp only [flag, bind_apply, pure_apply, List.flatMap_assoc]
    simp
  rw [this]
  exact .optBind (.tok h) hf

theorem decl_no (B : Rules) (C : StmRules) (n : Nat) : NoAt dNo (blockItemDeclaration C (env B n)) := by
  refine .manyBind (attributeInstance_no _ rfl) ?_
  noat_alts
  refine ⟨.bind ?_, .bind (.or (.bind (.tok rfl)) (.bind (.tok rfl))), .bind (.tok rfl), by simp⟩
  noat_alts
  refine ⟨flag_no rfl (.bind (.or (.bind (.tok rfl)) (.optBind (lifetime_no rfl rfl) (.bind ?_)))), .bind (.tok rfl), .bind (.bind (.tok rfl)), .bind (.bind (.tok rfl)), by simp⟩
  exact .or (.bind (dataType_dNo B n)) (.bind (implicit_no _ rfl rfl rfl))

theorem flag_none {t : ST} {w : List STok} (h : tok t w = []) : flag t w = [(false, w)] := by
  rw [flag, bind_apply, opt_none h]; rfl

/-- A statement that begins with a name is no declaration. -/
theorem decl_name (C : StmRules) (M : Nat) {w : List STok} (hw : NamedOrLabel w) : blockItemDeclaration C (env B M) w = [] := by
  have hw0 := hw
  obtain ⟨i, x, r, rfl, hx, -⟩ := hw
  have ne : ∀ {t : ST}, isIdTok t = false → tok t (x :: r) = [] := fun h => tok_neg (ident_notPath hx h) r
  have key : ∀ {α : Type} {q : P α}, NoAt isIdTok q → q (x :: r) = [] := fun hq => hq.cons (ident_id hx)
  show (attributes (env B M) >>= fun _ => _) _ = []
  rw [bind_apply, attributes_ne (ident_notPath hx rfl)]
  simp only [List.flatMap_cons, List.flatMap_nil, List.append_nil]
  have hv : variablesDeclaration (env B M) (x :: r) = [] := by
    show (flag .KW_CONST >>= fun _ => _) _ = []
    rw [bind_apply, flag_none (ne rfl)]
    simp only [List.flatMap_cons, List.flatMap_nil, List.append_nil]
    refine List.eq_nil_iff_forall_not_mem.2 fun z hz => ?_
    obtain ⟨t, r1, h1, h2⟩ := mem_bind.1 hz
    have hb : Bd r1 := by
      rcases mem_or.1 h1 with h1 | h1
      · rw [bind_nil (ne rfl)] at h1; cases h1
      · obtain ⟨a, r2, h3, h4⟩ := mem_bind.1 h1
        rw [opt_none (key (lifetime_no rfl rfl))] at h3
        simp only [List.mem_singleton] at h3
        cases h3
        obtain ⟨b, r3, h5, h6⟩ := mem_bind.1 h4
        rw [mem_pure] at h6; cases h6
        rcases mem_or.1 h5 with h5 | h5
        · obtain ⟨c, r4, h7, h8⟩ := mem_bind.1 h5
          rw [mem_pure] at h8; cases h8
          exact dataType_bd M hw0 _ h7
        · rw [bind_nil (key (implicit_no _ rfl rfl rfl))] at h5; cases h5
    exact nil_mem h2 (bind_nil (bind_nil (bind_nil hb.id)))
  show (dataDeclaration C (env B M) >>= fun d => _) _ ++ ((P.or _ _ >>= fun _ => _) _ ++ (tok .KW_LET >>= fun _ => _) _) = []
  rw [bind_nil (ne rfl), bind_nil (key (.or (.bind (.tok rfl)) (.bind (.tok rfl)))), bind_nil]
  · rfl
  · show variablesDeclaration (env B M) _ ++ ((tok .KW_TYPEDEF >>= fun _ => _) _ ++ ((packageImport >>= fun _ => _) _ ++ (netTypeDeclaration (env B M) >>= fun _ => _) _)) = []
    have h1 : packageImport (x :: r) = [] := bind_nil (ne rfl)
    have h2 : netTypeDeclaration (env B M) (x :: r) = [] := bind_nil (ne rfl)
    rw [hv, bind_nil (ne rfl), bind_nil h1, bind_nil h2]; rfl

/-! ## Texts which begin with a name -/

/-- What can follow the name. -/
structure Tail (R : List STok) : Prop where
  bd : Bd R
  colons : ∀ y s, R = y :: s → y.ty ≠ .DOUBLE_COLON
  colon : ∀ y s, R = y :: s → y.ty ≠ .COLON
  special : ∀ y s, R = y :: s → isSpecial y.ty = false

theorem Tail.of {y : STok} {t : ST} (hy : y.ty = t) (s : List STok) (h : isIdTok t = false ∧ t ≠ .LSQUARE_BR ∧ t ≠ .DOUBLE_COLON ∧ t ≠ .COLON ∧ isSpecial t = false) :
    Tail (y :: s) := by
  refine ⟨.stop ?_, ?_, ?_, ?_⟩ <;> (rintro _ _ ⟨⟩; rw [hy])
  · exact ⟨h.1, h.2.1, by rintro rfl; exact absurd h.2.2.2.2 (by decide)⟩
  · exact h.2.2.1
  · exact h.2.2.2.1
  · exact h.2.2.2.2

theorem callable_named : ∀ (p : SPrim) (w : List STok), callable p = true → p.Toks w → ∀ R, Tail R → Named (w ++ R)
  | .name i l, w, _, h, R, hR => by
    rw [SPrim.Toks] at h
    obtain ⟨_, v, rfl, ⟨x, rfl, hx⟩, h2⟩ := h
    refine ⟨i, x, v ++ R, by simp, hx, ⟨l, v, R, rfl, h2, hR.bd, hR.colons⟩, ?_⟩
    cases l with
    | nil => rw [idsToks, Spec.SvLrm.Empty] at h2; subst h2; exact hR.colon
    | cons j l =>
      rw [idsToks] at h2
      obtain ⟨_, _, rfl, ⟨x, rfl, hx⟩, -⟩ := h2
      intro _ _ e; cases e; rw [hx]; decide
  | .bit p e, w, hc, h, R, hR => by
    rw [SPrim.Toks] at h
    obtain ⟨u, v, rfl, h1, _, _, rfl, ⟨o, rfl, ho⟩, v3, _, rfl, h3, ⟨c, rfl, hc'⟩⟩ := h
    rw [List.append_assoc]
    refine callable_named p u hc h1 _ ?_
    simp only [List.append_assoc, List.cons_append, List.nil_append]
    refine ⟨.dim ho (exp_ex (xcfg_dep allS) e v3 h3) (by rw [hc']; rfl) hR.special hR.bd, ?_, ?_, ?_⟩ <;> (rintro _ _ ⟨⟩; rw [ho]; decide)
  | .dot p i, w, hc, h, R, hR => by
    rw [SPrim.Toks] at h
    obtain ⟨u, v, rfl, h1, _, v2, rfl, ⟨x, rfl, hx⟩, -⟩ := h
    rw [List.append_assoc]
    exact callable_named p u hc h1 _ (.of hx _ (by decide))
  | .lit _, _, hc, _, _, _ => (by cases hc)
  | .paren _, _, hc, _, _, _ => (by cases hc)
  | .cast _ _, _, hc, _, _, _ => (by cases hc)
  | .part _ _ _ _, _, hc, _, _, _ => (by cases hc)
  | .concat _ _, _, hc, _, _, _ => (by cases hc)
  | .repl _ _ _, _, hc, _, _, _ => (by cases hc)
  | .pat _ _, _, hc, _, _, _ => (by cases hc)
  | .patKeys _ _, _, hc, _, _, _ => (by cases hc)
  | .call _ _, _, hc, _, _, _ => (by cases hc)
  | .sys _, _, hc, _, _, _ => (by cases hc)
  | .sysCall _ _, _, hc, _, _, _ => (by cases hc)

theorem target_named {p : SPrim} {w : List STok} (hp : target p = true) (h : p.Toks w) {R : List STok} (hR : Tail R) :
    Named (w ++ R) ∨ ∃ x s, w ++ R = x :: s ∧ x.ty = .LBRACE := by
  rcases target_cases hp with hp | ⟨q, k, a, b, rfl, hq⟩ | ⟨e, l, rfl, -, -, -⟩
  · exact .inl (callable_named p w (element_callable p hp) h R hR)
  · rw [SPrim.Toks] at h
    obtain ⟨u, v, rfl, h1, _, v2, rfl, ⟨x, rfl, hx⟩, u3, _, rfl, h3, u4, _, rfl, h4, u5, _, rfl, h5, ⟨y, rfl, hy⟩⟩ := h
    left
    rw [List.append_assoc]
    refine callable_named q u (element_callable q hq) h1 _ ?_
    have : Bd (x :: ((u3 ++ (u4 ++ u5)) ++ y :: R)) := .dim hx (by
      exact (exp_ex (xcfg_dep allS) a u3 h3).append ((part_ex k u4 h4).append (exp_ex (xcfg_dep allS) b u5 h5))) (by rw [hy]; rfl) hR.special hR.bd
    simp only [List.append_assoc, List.cons_append, List.nil_append] at this ⊢
    refine ⟨this, ?_, ?_, ?_⟩ <;> (rintro _ _ ⟨⟩; rw [hx]; decide)
  · rw [SPrim.Toks] at h
    obtain ⟨_, v, rfl, ⟨x, rfl, hx⟩, -⟩ := h
    exact .inr ⟨x, _, rfl, hx⟩

end Verif.Sv
