import Verif.SvTextStep
/-!
# The parse of a SystemVerilog expression: lists and arguments
-/
namespace Verif.Sv
open P Verif.Spec.SvLrm Verif.Spec.Sv

section
variable {V : Type} {A : Alg V} {B : Rules}

/-! ## Lists of expressions -/

variable (A) in
structure MEs (ts : List Exp) (l : List SExp) : Prop where
  ev : evExps A ts = expsEval A l
  ok : expsOk l → okExps ts
  len : ts.length = l.length

/-- A token which separates and is no comma. -/
def SepC (R : List STok) : Prop := ∃ y s, R = y :: s ∧ isClose y.ty = true

theorem SepC.sep {R : List STok} (h : SepC R) : Sep R := by
  obtain ⟨y, s, rfl, h⟩ := h
  refine ⟨y, s, rfl, ?_, ?_⟩ <;> · generalize y.ty = t at h; cases t <;> first | rfl | cases h
theorem SepC.ne {R : List STok} (h : SepC R) {t : ST} (ht : isClose t = false) : ∀ y s, R = y :: s → y.ty ≠ t := by
  obtain ⟨y, s, rfl, h⟩ := h
  intro _ _ e; cases e; rintro rfl; rw [ht] at h; cases h
theorem SepC.of {y : STok} {t : ST} (hy : y.ty = t) (s : List STok) (h : isClose t = true) : SepC (y :: s) := ⟨y, s, rfl, by rw [hy]; exact h⟩

theorem exps_sep {l : List SExp} {v R : List STok} (h : expsToks l v) (hR : SepC R) : Sep (v ++ R) := by
  cases l with
  | nil => rw [expsToks, Spec.SvLrm.Empty] at h; subst h; exact hR.sep
  | cons e l =>
    rw [expsToks] at h
    obtain ⟨_, _, rfl, ⟨x, rfl, hx⟩, -⟩ := h
    exact .of hx _ rfl rfl

section
variable {k : Nat} (g : Good A B k)
include g

theorem Good.exps : ∀ (l : List SExp) (v : List STok), expsToks l v → v.length ≤ k + 1 → ∀ M, v.length ≤ M → ∀ R, SepC R → ∃ ts, MEs A ts l ∧
    ∀ m, v.length ≤ m → First None' (manyN (do let _ ← tok .COMMA; (env B M).expression 0) m) (v ++ R) ts R
  | [], v, h, hk, M, hM, R, hR => by
    rw [expsToks, Spec.SvLrm.Empty] at h; subst h
    exact ⟨[], ⟨rfl, fun _ => trivial, rfl⟩, fun m _ => First.of_eq (manyN_stop (bind_nil (tok_ne (hR.ne rfl))) m)⟩
  | e :: l, _, h, hk, M, hM, R, hR => by
    rw [expsToks] at h
    obtain ⟨_, _, rfl, ⟨x, rfl, hx⟩, w, v, rfl, h1, h2⟩ := h
    simp only [List.length_append, List.length_cons, List.length_nil] at hk hM
    obtain ⟨t, ht, ft⟩ := g.expr' h1 (by omega) (M := M) (by omega) (exps_sep h2 hR)
    obtain ⟨ts, hts, fts⟩ := Good.exps l v h2 (by omega) M (by omega) R hR
    refine ⟨t :: ts, ⟨?_, ?_, ?_⟩, ?_⟩
    · rw [evExps, expsEval, ht.ev, hts.ev]
    · intro h; rw [expsOk] at h; exact ⟨ht.ok h.1, hts.ok h.2⟩
    · rw [List.length_cons, List.length_cons, hts.len]
    · intro m hm
      simp only [List.length_append, List.length_cons, List.length_nil] at hm
      obtain ⟨m, rfl⟩ : ∃ n, m = n + 1 := ⟨m - 1, by omega⟩
      rw [List.append_assoc, List.append_assoc]
      exact First.manyCons (First.bindH (First.tok hx _) ft) (fts m (by omega))

/-- `e, ...` -/
theorem Good.sepBy {e : SExp} {l : List SExp} {w v : List STok} (h1 : e.Toks w) (h2 : expsToks l v) (hk : (w ++ v).length ≤ k) {M : Nat}
    (hM : (w ++ v).length < M) {R : List STok} (hR : SepC R) : ∃ ts, MEs A ts (e :: l) ∧
    First None' (P.sepBy .COMMA ((env B M).expression 0)) (w ++ (v ++ R)) ts R := by
  simp only [List.length_append] at hk hM
  obtain ⟨t, ht, ft⟩ := g.expr' h1 (by omega) (M := M) (by omega) (exps_sep h2 hR)
  obtain ⟨ts, hts, fts⟩ := g.exps l v h2 (by omega) M (by omega) R hR
  refine ⟨t :: ts, ⟨?_, ?_, ?_⟩, ?_⟩
  · rw [evExps, expsEval, ht.ev, hts.ev]
  · intro h; rw [expsOk] at h; exact ⟨ht.ok h.1, hts.ok h.2⟩
  · rw [List.length_cons, List.length_cons, hts.len]
  · exact First.bindH ft (First.map (f := fun l => t :: l) (First.many (fts _ (by simp))))

/-! ## Concatenations -/

theorem Good.concat {e : SExp} {l : List SExp} {w v : List STok} {o c : STok} (ho : o.ty = .LBRACE) (hc : c.ty = .RBRACE) (h1 : e.Toks w)
    (h2 : expsToks l v) (hk : (w ++ v).length ≤ k) {M : Nat} (hM : (w ++ v).length < M) (R : List STok) : ∃ ts, MEs A ts (e :: l) ∧
    First None' (concatenation (env B M)) (o :: (w ++ (v ++ c :: R))) (.list ts) R := by
  simp only [List.length_append] at hk hM
  have hR : SepC (c :: R) := .of hc R rfl
  obtain ⟨t, ht, ft⟩ := g.expr' h1 (by omega) (M := M) (by omega) (exps_sep h2 hR)
  have hno : ∀ (y : STok) (s : List STok), y.ty ≠ .LBRACE → ((env B M).concatenation >>= fun c => (pure (Sum.inl c) : P (Concat ⊕ List Exp))) (y :: s) = [] :=
    fun y s hy => bind_nil ((concatenation_no B M).cons (by simp [hy]))
  cases l with
  | nil =>
    rw [expsToks, Spec.SvLrm.Empty] at h2; subst h2
    refine ⟨[t], ⟨?_, ?_, rfl⟩, ?_⟩
    · rw [evExps, evExps, expsEval, expsEval, ht.ev]
    · intro h; rw [expsOk] at h; exact ⟨ht.ok h.1, trivial⟩
    · refine First.bindH (First.tok ho _) (First.bindH (a := some (.list [t])) (r1 := c :: R) (First.some ?_) (First.bindH (First.tok hc R) (First.ret _ _)))
      refine First.bindH ft (First.bindH (First.noneE ?_) (First.ret _ _))
      have h3 : (many1 (do let _ ← tok .COMMA; (env B M).expression 0) >>= fun l => (pure (Sum.inr l) : P (Concat ⊕ List Exp))) (c :: R) = [] :=
        bind_nil (bind_nil (bind_nil (tok_neg (by rw [hc]; decide) R)))
      rw [List.nil_append, or_apply, hno c R (by rw [hc]; decide), h3]; rfl
  | cons e' l =>
    rw [expsToks] at h2
    obtain ⟨_, _, rfl, ⟨x, rfl, hx⟩, w', v, rfl, h3, h4⟩ := h2
    simp only [List.length_append, List.length_cons, List.length_nil] at hk hM
    obtain ⟨t', ht', ft'⟩ := g.expr' h3 (by omega) (M := M) (by omega) (exps_sep h4 hR)
    obtain ⟨ts, hts, fts⟩ := g.exps l v h4 (by omega) M (by omega) _ hR
    refine ⟨t :: t' :: ts, ⟨?_, ?_, ?_⟩, ?_⟩
    · rw [evExps, evExps, expsEval, expsEval, ht.ev, ht'.ev, hts.ev]
    · intro h; rw [expsOk, expsOk] at h; exact ⟨ht.ok h.1, ht'.ok h.2.1, hts.ok h.2.2⟩
    · simp [hts.len]
    · refine First.bindH (First.tok ho _) (First.bindH (a := some (.list (t :: t' :: ts))) (r1 := c :: R) (First.some ?_)
        (First.bindH (First.tok hc R) (First.ret _ _)))
      refine First.bindH ft (First.bindH (a := some (Sum.inr (t' :: ts))) (r1 := c :: R) (First.some ?_) (First.ret _ _))
      rw [List.append_assoc, List.append_assoc]
      refine First.orN (hno x _ (by rw [hx]; decide)) (First.map (f := Sum.inr) ?_)
      exact First.bindH (First.bindH (First.tok hx _) ft') (First.map (f := fun l => t' :: l) (First.many (fts _ (by simp))))

end

/-! ## Patterns with keys -/

variable (A) in
structure MKs (ts : List KV) (l : List SKV) : Prop where
  ev : evKVs A ts = kvsEval A l
  ok : kvsOk l → okKVs ts

theorem kvs_sep {l : List SKV} {v R : List STok} (h : kvsToks l v) (hR : SepC R) : Sep (v ++ R) := by
  cases l with
  | nil => rw [kvsToks, Spec.SvLrm.Empty] at h; subst h; exact hR.sep
  | cons e l =>
    rw [kvsToks] at h
    obtain ⟨_, _, rfl, ⟨x, rfl, hx⟩, -⟩ := h
    exact .of hx _ rfl rfl

variable (A) in
structure MK (t : KV) (k : SKV) : Prop where
  ev : evKV A t = k.eval A
  ok : k.Ok → okKV t

section
variable {k : Nat} (g : Good A B k)
include g

theorem Good.kv {f : SKV} {w : List STok} (h : f.Toks w) (hk : w.length ≤ k) {M : Nat} (hM : w.length < M) {R : List STok} (hR : Sep R) :
    ∃ t, MK A t f ∧ First None' (keyed (env B M) (structurePatternKey (env B M))) (w ++ R) t R := by
  cases f with
  | field i e =>
    rw [SKV.Toks] at h
    obtain ⟨_, _, rfl, ⟨x, rfl, hx⟩, _, v, rfl, ⟨y, rfl, hy⟩, h1⟩ := h
    simp only [List.length_append, List.length_cons, List.length_nil] at hk hM
    obtain ⟨t, ht, ft⟩ := g.expr' h1 (by omega) (M := M) (by omega) hR
    refine ⟨.mk (.ident i) t, ⟨?_, ?_⟩, ?_⟩
    · rw [evKV, evKey, SKV.eval, ht.ev]
    · intro h; rw [SKV.Ok] at h; exact ⟨h.1, ht.ok h.2⟩
    · rw [List.append_assoc, List.append_assoc]
      exact First.bindH (First.orL (First.map (f := Key.ident) (identifier_first hx _))) (First.bindH (First.tok hy _) (First.map (f := fun e => KV.mk (.ident i) e) ft))
  | dflt e =>
    rw [SKV.Toks] at h
    obtain ⟨_, _, rfl, ⟨x, rfl, hx⟩, _, v, rfl, ⟨y, rfl, hy⟩, h1⟩ := h
    simp only [List.length_append, List.length_cons, List.length_nil] at hk hM
    obtain ⟨t, ht, ft⟩ := g.expr' h1 (by omega) (M := M) (by omega) hR
    refine ⟨.mk .dflt t, ⟨?_, ?_⟩, ?_⟩
    · rw [evKV, evKey, SKV.eval, ht.ev]
    · intro h; rw [SKV.Ok] at h; exact ⟨trivial, ht.ok h⟩
    · rw [List.append_assoc, List.append_assoc]
      refine First.bindH (First.orN (bind_nil (identifier_no.cons (by rw [hx]; rfl))) (First.orL (First.map (f := fun _ => Key.dflt) (First.tok hx _))))
        (First.bindH (First.tok hy _) (First.map (f := fun e => KV.mk .dflt e) ft))

theorem Good.kvs : ∀ (l : List SKV) (v : List STok), kvsToks l v → v.length ≤ k + 1 → ∀ M, v.length ≤ M → ∀ R, SepC R → ∃ ts, MKs A ts l ∧
    ∀ m, v.length ≤ m → First None' (manyN (do let _ ← tok .COMMA; keyed (env B M) (structurePatternKey (env B M))) m) (v ++ R) ts R
  | [], v, h, hk, M, hM, R, hR => by
    rw [kvsToks, Spec.SvLrm.Empty] at h; subst h
    exact ⟨[], ⟨rfl, fun _ => trivial⟩, fun m _ => First.of_eq (manyN_stop (bind_nil (tok_ne (hR.ne rfl))) m)⟩
  | e :: l, _, h, hk, M, hM, R, hR => by
    rw [kvsToks] at h
    obtain ⟨_, _, rfl, ⟨x, rfl, hx⟩, w, v, rfl, h1, h2⟩ := h
    simp only [List.length_append, List.length_cons, List.length_nil] at hk hM
    obtain ⟨t, ht, ft⟩ := g.kv h1 (by omega) (M := M) (by omega) (kvs_sep h2 hR)
    obtain ⟨ts, hts, fts⟩ := Good.kvs l v h2 (by omega) M (by omega) R hR
    refine ⟨t :: ts, ⟨?_, ?_⟩, ?_⟩
    · rw [evKVs, kvsEval, ht.ev, hts.ev]
    · intro h; rw [kvsOk] at h; exact ⟨ht.ok h.1, hts.ok h.2⟩
    · intro m hm
      simp only [List.length_append, List.length_cons, List.length_nil] at hm
      obtain ⟨m, rfl⟩ : ∃ n, m = n + 1 := ⟨m - 1, by omega⟩
      rw [List.append_assoc, List.append_assoc]
      exact First.manyCons (First.bindH (First.tok hx _) ft) (fts m (by omega))

end

/-- Behind the key of a pattern with keys no list of expressions ends with a bracket. -/
theorem kv_dead {f : SKV} {w R : List STok} (h : f.Toks w) (M : Nat) :
    ∀ x ∈ P.sepBy .COMMA ((env B M).expression 0) (w ++ R), tok .RBRACE x.2 = [] := by
  have key : ∀ (y : STok) (u v : List STok), Ex commaS anyG u → y.ty = .COLON → ∀ x ∈ P.sepBy .COMMA ((env B M).expression 0) (u ++ y :: v), tok .RBRACE x.2 = [] := by
    intro y u v hu hy x hx
    obtain ⟨t, r, h1, h2⟩ := mem_bind.1 hx
    cases r with
    | nil => obtain ⟨ts, r, h3, h4⟩ := mem_bind.1 h2
             rw [mem_pure] at h4; subst h4
             rw [many_none (bind_nil rfl)] at h3
             simp only [List.mem_singleton] at h3
             cases h3; rfl
    | cons z r =>
      have hz : ∀ t, (isClose t = true ∨ t = .COMMA) → z.ty ≠ t := by
        rintro t ht rfl
        exact exp_cut hu (.inl hy) ht h1
      obtain ⟨ts, r, h3, h4⟩ := mem_bind.1 h2
      rw [mem_pure] at h4; subst h4
      rw [many_none (bind_nil (tok_neg (hz _ (.inr rfl)) _))] at h3
      simp only [List.mem_singleton] at h3
      cases h3
      exact tok_neg (hz _ (.inl rfl)) _
  cases f with
  | field i e =>
    rw [SKV.Toks] at h
    obtain ⟨u, _, rfl, hu, _, v, rfl, ⟨y, rfl, hy⟩, h1⟩ := h
    rw [List.append_assoc, List.append_assoc]
    exact key y u (v ++ R) (ident_ex xcfg_comma hu) hy
  | dflt e =>
    rw [SKV.Toks] at h
    obtain ⟨_, _, rfl, ⟨x, rfl, hx⟩, _, v, rfl, ⟨y, rfl, hy⟩, h1⟩ := h
    intro z hz
    have h3 : P.sepBy .COMMA ((env B M).expression 0) (x :: ((y :: v) ++ R)) = [] := bind_nil ((expression_eNo B M 0).cons (by rw [hx]; rfl))
    have hz : z ∈ P.sepBy .COMMA ((env B M).expression 0) (x :: ((y :: v) ++ R)) := hz
    rw [h3] at hz
    cases hz

/-! ## Arguments -/

variable (A) in
/-- An argument that is not omitted. -/
structure MA (x : Arg) (a : SArg) : Prop where
  ev : ∀ cur u, evArgs A cur (x :: u) = evArgs A (some (a.eval A)) u
  ok : ∀ u, a.Ok → okArgs false u → okArgs true (x :: u)

variable (A) in
/-- Arguments with a comma in front of each. -/
inductive MMore : List Arg → List SArg → Prop
  | nil : MMore [] []
  | omit {u : List Arg} {l : List SArg} (h : MMore u l) : MMore (.comma :: u) (.omit :: l)
  | item {x : Arg} {a : SArg} {u : List Arg} {l : List SArg} (hx : MA A x a) (h : MMore u l) : MMore (.comma :: x :: u) (a :: l)

theorem MMore.append {u v : List Arg} {l m : List SArg} (h : MMore A u l) (h' : MMore A v m) : MMore A (u ++ v) (l ++ m) := by
  induction h with
  | nil => exact h'
  | «omit» _ ih => exact .omit ih
  | item hx _ ih => exact .item hx ih

theorem MMore.ev {u : List Arg} {l : List SArg} (h : MMore A u l) : ∀ cur, evArgs A cur u = argVal A cur :: argsEval A l := by
  induction h with
  | nil => intro cur; rfl
  | «omit» _ ih => intro cur; rw [evArgs, ih, argsEval, SArg.eval]; rfl
  | item hx _ ih => intro cur; rw [evArgs, hx.ev, ih, argsEval]; rfl

theorem MMore.ok {u : List Arg} {l : List SArg} (h : MMore A u l) : ∀ b, argsOk l → (l = [] → b = false) → okArgs b u := by
  induction h with
  | nil => intro b _ h; exact h rfl
  | «omit» _ ih =>
    intro b h _
    rw [argsOk] at h
    rw [okArgs]
    exact ih true h.2.1 fun e => (h.2.2 e rfl).elim
  | item hx _ ih =>
    intro b h _
    rw [argsOk] at h
    rw [okArgs]
    exact hx.ok _ h.1 (ih false h.2.1 fun _ => rfl)

variable (A) in
/-- A list of arguments. -/
structure MFull (u : List Arg) (l : List SArg) : Prop where
  ev : evArgs A none u = argsEval A l
  ok : argsOk l → okArgs true u
  ne : u ≠ []

theorem MFull.omit {u : List Arg} {l : List SArg} (h : MMore A u l) (hl : l ≠ []) : MFull A u (.omit :: l) where
  ev := by rw [h.ev, argsEval, SArg.eval]; rfl
  ok := by intro h1; rw [argsOk] at h1; exact h.ok true h1.2.1 fun e => (hl e).elim
  ne := by rintro rfl; cases h; exact hl rfl

theorem MFull.item {x : Arg} {a : SArg} {u : List Arg} {l : List SArg} (hx : MA A x a) (h : MMore A u l) : MFull A (x :: u) (a :: l) where
  ev := by rw [hx.ev, h.ev, argsEval]; rfl
  ok := by intro h1; rw [argsOk] at h1; exact hx.ok _ h1.1 (h.ok false h1.2.1 fun _ => rfl)
  ne := by simp

def isNamed : SArg → Bool
  | .named _ _ | .namedEmpty _ => true
  | _ => false

theorem ordered_named {a : SArg} {l : List SArg} (ha : isNamed a = true) (h : ordered (a :: l) = true) : l.all isNamed = true := by
  have hf : isNamed = fun a => match a with
    | .named _ _ | .namedEmpty _ => true
    | _ => false := by funext a; cases a <;> rfl
  cases a with
  | «omit» => cases ha
  | pos e => cases ha
  | named i e => rw [ordered] at h; rw [hf]; exact h
  | namedEmpty i => rw [ordered] at h; rw [hf]; exact h

theorem ordered_pos {a : SArg} {l : List SArg} (ha : isNamed a = false) (h : ordered (a :: l) = true) : ordered l = true := by
  cases a with
  | «omit» => rw [ordered] at h <;> first | exact h | simp
  | pos e => rw [ordered] at h <;> first | exact h | simp
  | named i e => cases ha
  | namedEmpty i => cases ha

theorem more_cons {a : SArg} {l : List SArg} {v : List STok} (h : moreToks (a :: l) v) : ∃ x w, v = x :: w ∧ x.ty = .COMMA ∧ argsToks (a :: l) w := by
  rw [moreToks] at h
  obtain ⟨_, w, rfl, ⟨x, rfl, hx⟩, h2⟩ := h
  exact ⟨x, w, rfl, hx, by rw [argsToks]; exact h2⟩

theorem more_sep {l : List SArg} {v R : List STok} (h : moreToks l v) (hR : SepC R) : Sep (v ++ R) := by
  cases l with
  | nil => rw [moreToks, Spec.SvLrm.Empty] at h; subst h; exact hR.sep
  | cons e l => obtain ⟨x, w, rfl, hx, -⟩ := more_cons h; exact .of hx _ rfl rfl

/-- No expression begins here. -/
theorem more_eNo {l : List SArg} {v R : List STok} (h : moreToks l v) (hR : SepC R) : ∀ y s, v ++ R = y :: s → eNo y.ty = true := by
  cases l with
  | nil =>
    rw [moreToks, Spec.SvLrm.Empty] at h; subst h
    obtain ⟨y, s, rfl, h⟩ := hR
    intro _ _ e; cases e
    generalize y.ty = t at h; cases t <;> first | rfl | cases h
  | cons e l => obtain ⟨x, w, rfl, hx, -⟩ := more_cons h; intro _ _ e; cases e; rw [hx]; rfl

theorem named_dot {a : SArg} (ha : isNamed a = true) {w : List STok} (h : a.Toks w) : ∃ y s, w = y :: s ∧ y.ty = .DOT := by
  cases a with
  | «omit» => cases ha
  | pos e => cases ha
  | named i e => rw [SArg.Toks] at h; obtain ⟨_, _, rfl, ⟨x, rfl, hx⟩, -⟩ := h; exact ⟨x, _, rfl, hx⟩
  | namedEmpty i => rw [SArg.Toks] at h; obtain ⟨_, _, rfl, ⟨x, rfl, hx⟩, -⟩ := h; exact ⟨x, _, rfl, hx⟩

section
variable {k : Nat} (g : Good A B k)
include g

theorem Good.named {a : SArg} (ha : isNamed a = true) {w : List STok} (h : a.Toks w) (hk : w.length ≤ k + 1) {M : Nat} (hM : w.length ≤ M)
    (R : List STok) : ∃ x, MA A x a ∧ First None' (namedArgument (env B M)) (w ++ R) x R := by
  cases a with
  | «omit» => cases ha
  | pos e => cases ha
  | named i e =>
    rw [SArg.Toks] at h
    obtain ⟨_, _, rfl, ⟨d, rfl, hd⟩, _, _, rfl, ⟨x, rfl, hx⟩, _, _, rfl, ⟨o, rfl, ho⟩, w, _, rfl, h1, ⟨c, rfl, hc⟩⟩ := h
    simp only [List.length_append, List.length_cons, List.length_nil] at hk hM
    obtain ⟨t, ht, ft⟩ := g.expr' h1 (by omega) (M := M) (by omega) (R := c :: R) (.of hc R rfl rfl)
    refine ⟨.named i t, ⟨?_, ?_⟩, ?_⟩
    · intro cur u; rw [evArgs, SArg.eval, ht.ev]
    · intro u h1 h2; rw [SArg.Ok] at h1; exact ⟨rfl, h1.1, ht.ok h1.2, h2⟩
    · simp only [List.append_assoc, List.cons_append, List.nil_append]
      exact First.bindH (First.tok hd _) (First.bindH (identifier_first hx _) (First.bindH (First.tok ho _) (First.bindH (First.some ft)
        (First.bindH (First.tok hc _) (First.ret _ _)))))
  | namedEmpty i =>
    rw [SArg.Toks] at h
    obtain ⟨_, _, rfl, ⟨d, rfl, hd⟩, _, _, rfl, ⟨x, rfl, hx⟩, _, _, rfl, ⟨o, rfl, ho⟩, ⟨c, rfl, hc⟩⟩ := h
    refine ⟨.namedEmpty i, ⟨?_, ?_⟩, ?_⟩
    · intro cur u; rw [evArgs, SArg.eval]
    · intro u h1 h2; rw [SArg.Ok] at h1; exact ⟨rfl, h1, h2⟩
    · simp only [List.cons_append, List.nil_append]
      exact First.bindH (First.tok hd _) (First.bindH (identifier_first hx _) (First.bindH (First.tok ho _) (First.bindH
        (First.noneE ((expression_eNo B M 0).cons (by rw [hc]; rfl))) (First.bindH (First.tok hc _) (First.ret _ _)))))

/-- Named arguments with commas in front. -/
theorem Good.nameds : ∀ (l : List SArg) (v : List STok), l.all isNamed = true → moreToks l v → v.length ≤ k + 1 → ∀ M, v.length ≤ M → ∀ R, SepC R →
    ∃ xs : List Arg, MMore A (xs.map fun x => [Arg.comma, x]).flatten l ∧
    ∀ m, v.length ≤ m → First None' (manyN (do let _ ← tok .COMMA; namedArgument (env B M)) m) (v ++ R) xs R
  | [], v, _, h, hk, M, hM, R, hR => by
    rw [moreToks, Spec.SvLrm.Empty] at h; subst h
    exact ⟨[], .nil, fun m _ => First.of_eq (manyN_stop (bind_nil (tok_ne (hR.ne rfl))) m)⟩
  | a :: l, _, ha, h, hk, M, hM, R, hR => by
    rw [moreToks] at h
    obtain ⟨_, _, rfl, ⟨x, rfl, hx⟩, w, v, rfl, h1, h2⟩ := h
    simp only [List.length_append, List.length_cons, List.length_nil] at hk hM
    rw [List.all_cons, Bool.and_eq_true] at ha
    obtain ⟨t, ht, ft⟩ := g.named ha.1 h1 (by omega) (M := M) (by omega) (v ++ R)
    obtain ⟨ts, hts, fts⟩ := Good.nameds l v ha.2 h2 (by omega) M (by omega) R hR
    refine ⟨t :: ts, .item ht hts, ?_⟩
    intro m hm
    simp only [List.length_append, List.length_cons, List.length_nil] at hm
    obtain ⟨m, rfl⟩ : ∃ n, m = n + 1 := ⟨m - 1, by omega⟩
    rw [List.append_assoc, List.append_assoc]
    exact First.manyCons (First.bindH (First.tok hx _) ft) (fts m (by omega))

omit g in
theorem comma_dot {M : Nat} {x : STok} {s : List STok} (hx : x.ty = .COMMA) (hs : DotD s) :
    ∀ m, ∀ y ∈ manyN (commaExpression (env B M)) m (x :: s), DotD y.2 ∨ y = ([], x :: s)
  | 0, y, hy => by rw [manyN, mem_pure] at hy; exact .inr hy
  | m + 1, y, hy => by
    rcases mem_or.1 hy with hy | hy
    · obtain ⟨a, r, h1, h2⟩ := mem_bind.1 hy
      obtain ⟨_, r1, h3, h4⟩ := mem_bind.1 h1
      rw [tok_pos hx] at h3
      simp only [List.mem_singleton] at h3
      cases h3
      obtain ⟨d, s', rfl, hd⟩ := hs
      rw [bind_apply, opt_none ((expression_eNo B M 0).cons (by rw [hd]; rfl))] at h4
      simp only [List.flatMap_cons, List.flatMap_nil, List.append_nil, pure_apply, List.mem_singleton] at h4
      cases h4
      rw [bind_apply, manyN_stop (p := commaExpression (env B M)) (bind_nil (tok_neg (by rw [hd]; decide) _))] at h2
      simp only [List.flatMap_cons, List.flatMap_nil, List.append_nil, pure_apply, List.mem_singleton] at h2
      cases h2
      exact .inl ⟨d, s', rfl, hd⟩
    · rw [mem_pure] at hy; exact .inr hy

omit g in
theorem comma_stop {M : Nat} {x : STok} {s : List STok} (hx : x.ty = .COMMA) (hs : DotD s) (m : Nat) :
    First DotD (manyN (commaExpression (env B M)) m) (x :: s) [] (x :: s) := by
  cases m with
  | zero => exact First.ret _ _
  | succ m =>
    refine First.orR ?_ (First.ret _ _)
    intro y hy
    obtain ⟨a, r, h1, h2⟩ := mem_bind.1 hy
    obtain ⟨l, r', h5, h6⟩ := mem_bind.1 h2
    rw [mem_pure] at h6; subst h6
    have h7 : (a :: l, r') ∈ manyN (commaExpression (env B M)) (m + 1) (x :: s) :=
      mem_or.2 (.inl (mem_bind.2 ⟨a, r, h1, mem_bind.2 ⟨l, r', h5, mem_pure.2 rfl⟩⟩))
    rcases comma_dot hx hs _ _ h7 with h | h
    · exact h
    · cases h

/-- Arguments by position with commas in front, up to the first named one. -/
theorem Good.more : ∀ (l : List SArg) (v : List STok), ordered l = true → moreToks l v → v.length ≤ k + 1 → ∀ M, v.length ≤ M → ∀ R, SepC R →
    ∃ l1 l2 v1 v2 us, l = l1 ++ l2 ∧ v = v1 ++ v2 ∧ l2.all isNamed = true ∧ moreToks l2 v2 ∧ MMore A us.flatten l1 ∧
    ∀ m, v.length ≤ m → First DotD (manyN (commaExpression (env B M)) m) (v ++ R) us (v2 ++ R)
  | [], v, _, h, hk, M, hM, R, hR => by
    have h0 := h
    rw [moreToks, Spec.SvLrm.Empty] at h; subst h
    exact ⟨[], [], [], [], [], rfl, rfl, rfl, h0, .nil, fun m _ => First.of_eq (manyN_stop (bind_nil (tok_ne (hR.ne rfl))) m)⟩
  | a :: l, v, ho, h, hk, M, hM, R, hR => by
    have h0 := h
    rw [moreToks] at h
    obtain ⟨_, _, rfl, ⟨x, rfl, hx⟩, w, v, rfl, h1, h2⟩ := h
    simp only [List.length_append, List.length_cons, List.length_nil] at hk hM
    cases ha : isNamed a with
    | true =>
      refine ⟨[], a :: l, [], [x] ++ (w ++ v), [], rfl, rfl, ?_, h0, .nil, fun m _ => ?_⟩
      · rw [List.all_cons, ha, ordered_named ha ho]; rfl
      · obtain ⟨y, s, rfl, hy⟩ := named_dot ha h1
        simp only [List.append_assoc, List.cons_append, List.nil_append]
        exact comma_stop hx ⟨y, _, rfl, hy⟩ m
    | false =>
      obtain ⟨l1, l2, v1, v2, us, rfl, rfl, h3, h4, h5, h6⟩ := Good.more l v (ordered_pos ha ho) h2 (by omega) M (by omega) R hR
      cases a with
      | named i e => cases ha
      | namedEmpty i => cases ha
      | «omit» =>
        rw [SArg.Toks, Spec.SvLrm.Empty] at h1; subst h1
        refine ⟨.omit :: l1, l2, x :: v1, v2, [.comma] :: us, rfl, rfl, h3, h4, .omit h5, ?_⟩
        intro m hm
        simp only [List.length_append, List.length_cons, List.length_nil] at hm
        obtain ⟨m, rfl⟩ : ∃ n, m = n + 1 := ⟨m - 1, by omega⟩
        refine First.manyCons (r1 := (v1 ++ v2) ++ R) ?_ (h6 m (by simp; omega))
        exact First.bindH (First.tok hx _) (First.bindH (First.noneE (expression_eNo B M 0 _ (more_eNo h2 hR))) (First.ret _ _))
      | pos e =>
        rw [SArg.Toks] at h1
        obtain ⟨t, ht, ft⟩ := g.expr' h1 (by omega) (M := M) (by omega) (more_sep h2 hR)
        have hMA : MA A (.expr t) (.pos e) := ⟨fun cur u => by rw [evArgs, SArg.eval, ht.ev], fun u h1 h2 => by rw [SArg.Ok] at h1; exact ⟨rfl, ht.ok h1, h2⟩⟩
        refine ⟨.pos e :: l1, l2, x :: (w ++ v1), v2, [.comma, .expr t] :: us, rfl, by simp, h3, h4, .item hMA h5, ?_⟩
        intro m hm
        simp only [List.length_append, List.length_cons, List.length_nil] at hm
        obtain ⟨m, rfl⟩ : ∃ n, m = n + 1 := ⟨m - 1, by omega⟩
        refine First.manyCons (r1 := (v1 ++ v2) ++ R) ?_ (h6 m (by simp; omega))
        simp only [List.append_assoc, List.cons_append, List.nil_append] at ft ⊢
        exact First.bindH (First.tok hx _) (First.bindH (First.some ft) (First.ret _ _))

/-- An argument by position with a comma in front. -/
theorem Good.comma {a : SArg} (ha : isNamed a = false) {l : List SArg} {w v : List STok} {x : STok} (hx : x.ty = .COMMA) (h : a.Toks w) (h2 : moreToks l v)
    (hk : w.length ≤ k) {M : Nat} (hM : w.length < M) {R : List STok} (hR : SepC R) : ∃ c, MMore A c [a] ∧
    First None' (commaExpression (env B M)) (x :: (w ++ (v ++ R))) c (v ++ R) := by
  cases a with
  | named i e => cases ha
  | namedEmpty i => cases ha
  | «omit» =>
    rw [SArg.Toks, Spec.SvLrm.Empty] at h; subst h
    have hE : (env B M).expression 0 (v ++ R) = [] := expression_eNo B M 0 _ (more_eNo h2 hR)
    exact ⟨[.comma], .omit .nil, First.bindH (First.tok hx _) (First.bindH (First.noneE hE) (First.ret _ _))⟩
  | pos e =>
    rw [SArg.Toks] at h
    obtain ⟨t, ht, ft⟩ := g.expr' h hk hM (more_sep h2 hR)
    have hMA : MA A (.expr t) (.pos e) := ⟨fun cur u => by rw [evArgs, SArg.eval, ht.ev], fun u h1 h2 => by rw [SArg.Ok] at h1; exact ⟨rfl, ht.ok h1, h2⟩⟩
    exact ⟨[.comma, .expr t], .item hMA .nil, First.bindH (First.tok hx _) (First.bindH (First.some ft) (First.ret _ _))⟩

/-- The end of a list of arguments. -/
def argsEnd (E : Env) (a : List Arg) : P (List Arg) := do
  let l ← many (do let _ ← tok .COMMA; namedArgument E)
  return a ++ (l.map fun x => [Arg.comma, x]).flatten

omit g in
theorem argsEnd_dot {E : Env} {a : List Arg} {s : List STok} (h : DotD s) : ∀ x ∈ argsEnd E a s, DotD x.2 := by
  intro x hx
  obtain ⟨l, r, h1, h2⟩ := mem_bind.1 hx
  rw [many_none (bind_nil (h.tok (by decide)))] at h1
  simp only [List.mem_singleton] at h1
  cases h1
  rw [mem_pure] at h2; subst h2
  exact h

theorem Good.args {l : List SArg} {w : List STok} (h : argsToks l w) (hne : l ≠ []) (hl : wellFormed l) (hk : w.length ≤ k) {M : Nat} (hM : w.length < M)
    {R : List STok} (hR : SepC R) : ∃ u, MFull A u l ∧ First DotD (listOfArguments (env B M)) (w ++ R) u R := by
  obtain ⟨ho, hom⟩ := hl
  cases l with
  | nil => exact absurd rfl hne
  | cons a l =>
  rw [argsToks] at h
  obtain ⟨w, v, rfl, h1, h2⟩ := h
  simp only [List.length_append] at hk hM
  rw [List.append_assoc]
  have alts4 : ∀ {p q r s : P (List Arg)}, alts [p, q, r, s] = P.or p (P.or q (P.or r s)) := rfl
  cases ha : isNamed a with
  | true =>
    obtain ⟨x, hx, fx⟩ := g.named ha h1 (by omega) (M := M) (by omega) (v ++ R)
    obtain ⟨xs, hxs, fxs⟩ := g.nameds l v (ordered_named ha ho) h2 (by omega) M (by omega) R hR
    refine ⟨_, .item hx hxs, ?_⟩
    refine First.bindH (First.orL (First.map (f := fun a => [a]) fx)) ?_
    exact First.map (f := fun l => [x] ++ (l.map fun x => [Arg.comma, x]).flatten) (First.weak (First.many (fxs _ (by simp))))
  | false =>
    have hnn : ∀ y s, w ++ (v ++ R) = y :: s → y.ty ≠ .DOT := by
      cases a with
      | named i e => cases ha
      | namedEmpty i => cases ha
      | «omit» =>
        rw [SArg.Toks, Spec.SvLrm.Empty] at h1; subst h1
        rw [List.nil_append]
        cases l with
        | nil => exact absurd rfl hom
        | cons b l => obtain ⟨x, w, rfl, hx, -⟩ := more_cons h2; intro _ _ e; cases e; rw [hx]; decide
      | pos e =>
        rw [SArg.Toks] at h1
        obtain ⟨y, s, rfl, h3, -⟩ := exp_begins e w h1
        intro _ _ e; cases e
        intro h4; rw [h4] at h3; cases h3
    have hA1 : (namedArgument (env B M) >>= fun a => (pure [a] : P (List Arg))) (w ++ (v ++ R)) = [] := bind_nil (bind_nil (tok_ne hnn))
    cases a with
    | named i e => cases ha
    | namedEmpty i => cases ha
    | pos e =>
      rw [SArg.Toks] at h1
      obtain ⟨t, ht, ft⟩ := g.expr' h1 (by omega) (M := M) (by omega) (more_sep h2 hR)
      have hMA : MA A (.expr t) (.pos e) := ⟨fun cur u => by rw [evArgs, SArg.eval, ht.ev], fun u h1 h2 => by rw [SArg.Ok] at h1; exact ⟨rfl, ht.ok h1, h2⟩⟩
      obtain ⟨l1, l2, v1, v2, us, rfl, rfl, h3, h4, h5, h6⟩ := g.more l v (ordered_pos ha ho) h2 (by omega) M (by omega) R hR
      simp only [List.length_append] at hk hM
      obtain ⟨xs, hxs, fxs⟩ := g.nameds l2 v2 h3 h4 (by omega) M (by omega) R hR
      refine ⟨_, .item hMA (h5.append hxs), ?_⟩
      have hb : ∀ y s, w ++ ((v1 ++ v2) ++ R) = y :: s → y.ty ≠ .COMMA := by
        obtain ⟨y, s, rfl, h3, -⟩ := exp_begins e w h1
        intro _ _ e; cases e
        intro h4; rw [h4] at h3; cases h3
      refine First.bind (D' := DotD) (a := .expr t :: us.flatten) (r1 := v2 ++ R) ?_ ?_ ?_
      · refine First.orN hA1 (First.orN (bind_nil (tok_ne hb)) (First.orL ?_))
        exact First.bindH ft (First.map (f := fun l : List (List Arg) => Arg.expr t :: l.flatten) (First.many (h6 _ (by simp))))
      · exact First.map (f := fun l => (Arg.expr t :: us.flatten) ++ (l.map fun x => [Arg.comma, x]).flatten) (First.weak (First.many (fxs _ (by simp))))
      · intro c s hs x hx; exact argsEnd_dot hs x hx
    | «omit» =>
      rw [SArg.Toks, Spec.SvLrm.Empty] at h1; subst h1
      rw [List.nil_append] at hA1 ⊢
      cases l with
      | nil => exact absurd rfl hom
      | cons b l =>
      have ho := ordered_pos ha ho
      cases hb : isNamed b with
      | true =>
        rw [moreToks] at h2
        obtain ⟨_, _, rfl, ⟨x, rfl, hx⟩, w, v, rfl, h1, h2⟩ := h2
        simp only [List.length_append, List.length_cons, List.length_nil] at hk hM
        obtain ⟨t, ht, ft⟩ := g.named hb h1 (by omega) (M := M) (by omega) (v ++ R)
        obtain ⟨xs, hxs, fxs⟩ := g.nameds l v (ordered_named hb ho) h2 (by omega) M (by omega) R hR
        refine ⟨_, .omit (.item ht hxs) (by simp), ?_⟩
        simp only [List.append_assoc, List.cons_append, List.nil_append] at hA1 ⊢
        refine First.bindH (First.orN hA1 (First.orL (First.bindH (First.tok hx _) (First.map (f := fun a => [Arg.comma, a]) ft)))) ?_
        exact First.map (f := fun l => [Arg.comma, t] ++ (l.map fun x => [Arg.comma, x]).flatten) (First.weak (First.many (fxs _ (by simp))))
      | false =>
        have hE : (env B M).expression 0 (v ++ R) = [] := expression_eNo B M 0 _ (more_eNo h2 hR)
        rw [moreToks] at h2
        obtain ⟨_, _, rfl, ⟨x, rfl, hx⟩, w, v, rfl, h1, h2⟩ := h2
        simp only [List.length_append, List.length_cons, List.length_nil] at hk hM
        have hA2 : ∀ y s, w ++ (v ++ R) = y :: s → y.ty ≠ .DOT := by
          cases b with
          | named i e => cases hb
          | namedEmpty i => cases hb
          | «omit» =>
            rw [SArg.Toks, Spec.SvLrm.Empty] at h1; subst h1
            rw [List.nil_append]
            cases l with
            | nil =>
              rw [moreToks, Spec.SvLrm.Empty] at h2; subst h2
              exact hR.ne rfl
            | cons b l => obtain ⟨x, w, rfl, hx, -⟩ := more_cons h2; intro _ _ e; cases e; rw [hx]; decide
          | pos e =>
            rw [SArg.Toks] at h1
            obtain ⟨y, s, rfl, h3, -⟩ := exp_begins e w h1
            intro _ _ e; cases e
            intro h4; rw [h4] at h3; cases h3
        obtain ⟨c, hc, fc⟩ := g.comma hb hx h1 h2 (by omega) (M := M) (by omega) hR
        obtain ⟨l1, l2, v1, v2, us, rfl, rfl, h3, h4, h5, h6⟩ := g.more l v (ordered_pos hb ho) h2 (by omega) M (by omega) R hR
        simp only [List.length_append] at hk hM
        obtain ⟨xs, hxs, fxs⟩ := g.nameds l2 v2 h3 h4 (by omega) M (by omega) R hR
        simp only [List.append_assoc, List.cons_append, List.nil_append] at hA1 hA2 hE fc h6 ⊢
        refine ⟨_, .omit (hc.append (h5.append hxs)) (by simp), ?_⟩
        rw [← List.append_assoc c]
        refine First.bind (D' := DotD) (a := c ++ us.flatten) (r1 := v2 ++ R) ?_ ?_ ?_
        · refine First.orN hA1 (First.orN ?_ (First.orN (bind_nil hE) (First.map (f := fun l : List (List Arg) => l.flatten) (a := c :: us) ?_)))
          · rw [bind_apply, tok_pos hx]
            simp only [List.flatMap_cons, List.flatMap_nil, List.append_nil]
            exact bind_nil (bind_nil (tok_ne hA2))
          · exact First.bindH fc (First.map (f := fun l => c :: l) (First.many (h6 _ (by simp))))
        · exact First.map (f := fun l => (c ++ us.flatten) ++ (l.map fun x => [Arg.comma, x]).flatten) (First.weak (First.many (fxs _ (by simp))))
        · intro c s hs x hx; exact argsEnd_dot hs x hx

end
end

end Verif.Sv
