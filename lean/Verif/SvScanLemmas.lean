import Verif.SvParseLemmas
/-!
# The rules for SystemVerilog expressions keep brackets together
-/
namespace Verif.Sv
open P

variable {α β : Type}

/-! ## Reading tokens with brackets -/

/-- Opening brackets. -/
def isOpen : ST → Bool
  | .LPAREN | .LSQUARE_BR | .LBRACE | .APOSTROPHE_LBRACE => true
  | _ => false
/-- Closing brackets. -/
def isClose : ST → Bool
  | .RPAREN | .RSQUARE_BR | .RBRACE => true
  | _ => false
/-- The keywords in front of the rules which are not modelled, and others which do not occur in the texts we look at. -/
def isSpecial : ST → Bool
  | .KW_RANDOMIZE | .KW_ENUM | .KW_STRUCT | .KW_UNION | .KW_VIRTUAL | .KW_THIS | .HASH | .KW_TYPE => true
  | _ => false

/-- Where a scan of the tokens is: `d` brackets are open, and outside of brackets `q` question marks wait for their colon; `free` after
a special token. -/
inductive Scan
  | run (d q : Nat)
  | free
deriving DecidableEq

/-- One token more; outside of brackets the tokens of `S`, a closing bracket and a colon without question mark cannot be read. -/
def scan1 (S : ST → Bool) : Scan → ST → Option Scan
  | .free, _ => some .free
  | .run d q, t =>
    if isSpecial t then some .free
    else if d = 0 ∧ S t = true then none
    else if isOpen t then some (.run (d + 1) q)
    else if isClose t then (if d = 0 then none else some (.run (d - 1) q))
    else if d ≠ 0 then some (.run d q)
    else if t = .QUESTIONMARK then some (.run 0 (q + 1))
    else if t = .COLON then (if q = 0 then none else some (.run 0 (q - 1)))
    else some (.run d q)

def scan (S : ST → Bool) : Scan → List STok → Option Scan
  | s, [] => some s
  | s, t :: r => (scan1 S s t.ty).bind fun s => scan S s r

theorem scan_append (S : ST → Bool) : ∀ (u v : List STok) (s : Scan), scan S s (u ++ v) = (scan S s u).bind fun s => scan S s v
  | [], v, s => rfl
  | t :: u, v, s => by
    rw [List.cons_append, scan, scan]
    cases scan1 S s t.ty with
    | none => rfl
    | some s' => exact scan_append S u v s'

theorem scan_free (S : ST → Bool) : ∀ u, scan S .free u = some .free
  | [] => rfl
  | t :: u => by rw [scan, scan1]; exact scan_free S u

theorem scan_cons {S : ST → Bool} {s s' : Scan} {t : STok} (h : scan1 S s t.ty = some s') (u : List STok) :
    scan S s (t :: u) = scan S s' u := by rw [scan, h]; rfl

/-- The scan is back where it was, or free. -/
def Back (S : ST → Bool) (s s' : Scan) (u : List STok) : Prop := scan S s u = some s' ∨ scan S s u = some .free

theorem Back.append {S : ST → Bool} {s s' s'' : Scan} {u v : List STok} (h1 : Back S s s' u) (h2 : Back S s' s'' v) :
    Back S s s'' (u ++ v) := by
  rcases h1 with h1 | h1
  · unfold Back; rw [scan_append, h1]; exact h2
  · exact .inr (by rw [scan_append, h1]; exact scan_free S v)

/-- The rest after tokens which keep all states of `G`. -/
def Keep (S : ST → Bool) (G : Nat → Nat → Prop) (ts r : List STok) : Prop :=
  ∃ u, ts = u ++ r ∧ ∀ d q, G d q → Back S (.run d q) (.run d q) u
/-- The rest after tokens which close a bracket. -/
def KeepIn (S : ST → Bool) (G : Nat → Nat → Prop) (ts r : List STok) : Prop :=
  ∃ u, ts = u ++ r ∧ ∀ d q, G d q → Back S (.run (d + 1) q) (.run d q) u
/-- The rest after tokens from behind a question mark. -/
def KeepQ (S : ST → Bool) (G : Nat → Nat → Prop) (ts r : List STok) : Prop :=
  ∃ u, ts = u ++ r ∧ ∀ d q d' q', G d q → G d' q' → scan1 S (.run d' q') .COLON = some (.run d q) → Back S (.run d' q') (.run d q) u

/-- In brackets. -/
def dep : Nat → Nat → Prop := fun d _ => d ≠ 0

theorem keep_rel (S : ST → Bool) (G : Nat → Nat → Prop) : Rel (Keep S G) where
  refl ts := ⟨[], rfl, fun _ _ _ => .inl rfl⟩
  trans := by
    rintro a b c ⟨u, rfl, hu⟩ ⟨v, rfl, hv⟩
    exact ⟨u ++ v, by simp, fun d q h => (hu d q h).append (hv d q h)⟩

/-- The token keeps the states. -/
def Ok1 (S : ST → Bool) (G : Nat → Nat → Prop) (t : ST) : Prop :=
  ∀ d q, G d q → scan1 S (.run d q) t = some (.run d q) ∨ scan1 S (.run d q) t = some .free

/-- The bracket can be opened. -/
def OpenOk (S : ST → Bool) (G : Nat → Nat → Prop) (o : ST) : Prop :=
  ∀ d q, G d q → scan1 S (.run d q) o = some (.run (d + 1) q)

section
variable {S : ST → Bool} {G : Nat → Nat → Prop}

theorem tok_keep {t : ST} (h : Ok1 S G t) : Snd (Keep S G) (tok t) := by
  intro ts x hx
  obtain ⟨y, e, hy, -⟩ := mem_tok.1 hx
  refine ⟨[y], e, fun d q hg => ?_⟩
  unfold Back
  rw [scan, hy]
  rcases h d q hg with h | h <;> rw [h]
  · exact .inl rfl
  · exact .inr rfl

theorem toks_keep {l : List (ST × α)} (h : ∀ x ∈ l, Ok1 S G x.1) : Snd (Keep S G) (toks l) := by
  refine Snd.alts fun p hp => ?_
  obtain ⟨x, hx, rfl⟩ := List.mem_map.1 hp
  exact Snd.bind (keep_rel S G) (tok_keep (h x hx)) fun _ => Snd.ret (keep_rel S G) _

theorem texts_keep {l : List ST} (h : ∀ x ∈ l, Ok1 S G x) : Snd (Keep S G) (texts l) := by
  refine Snd.alts fun p hp => ?_
  obtain ⟨x, hx, rfl⟩ := List.mem_map.1 hp
  exact tok_keep (h x hx)

theorem skip_keep {p : P α} (h : Snd (Keep S G) p) : Snd (Keep S G) (skip p) :=
  Snd.bind (keep_rel S G) h fun _ => Snd.ret (keep_rel S G) _

theorem many1_keep {p : P α} (h : Snd (Keep S G) p) : Snd (Keep S G) (many1 p) :=
  Snd.bind (keep_rel S G) h fun _ => Snd.bind (keep_rel S G) (Snd.many (keep_rel S G) h) fun _ => Snd.ret (keep_rel S G) _

/-- A bracket opens. -/
theorem open_keep {o : ST} (ho : OpenOk S G o) {f : Str → P α} (hf : ∀ a, Snd (KeepIn S G) (f a)) : Snd (Keep S G) (tok o >>= f) := by
  intro ts x hx
  obtain ⟨a, r, h1, h2⟩ := mem_bind.1 hx
  obtain ⟨y, e, hy, -⟩ := mem_tok.1 h1
  obtain ⟨u, e2, hu⟩ := hf a _ _ h2
  simp only at e e2
  subst e2; subst e
  refine ⟨y :: u, rfl, fun d q hg => ?_⟩
  have : scan1 S (.run d q) y.ty = some (.run (d + 1) q) := by
    rw [hy]; exact ho d q hg
  unfold Back
  rw [scan_cons this]
  exact hu d q hg

/-- Inside of a bracket. -/
theorem in_keep {p : P α} {f : α → P β} (hp : Snd (Keep S dep) p) (hf : ∀ a, Snd (KeepIn S G) (f a)) : Snd (KeepIn S G) (p >>= f) := by
  intro ts x hx
  obtain ⟨a, r, h1, h2⟩ := mem_bind.1 hx
  obtain ⟨u, e, hu⟩ := hp _ _ h1
  obtain ⟨v, e2, hv⟩ := hf a _ _ h2
  simp only at e e2
  subst e2; subst e
  exact ⟨u ++ v, by simp, fun d q hg => (hu (d + 1) q (Nat.succ_ne_zero d)).append (hv d q hg)⟩

/-- A bracket closes. -/
theorem close_keep {c : ST} (hc : isClose c = true) {f : Str → P α} (hf : ∀ a, Snd (Keep S G) (f a)) : Snd (KeepIn S G) (tok c >>= f) := by
  intro ts x hx
  obtain ⟨a, r, h1, h2⟩ := mem_bind.1 hx
  obtain ⟨y, e, hy, -⟩ := mem_tok.1 h1
  obtain ⟨u, e2, hu⟩ := hf a _ _ h2
  simp only at e e2
  subst e2; subst e
  refine ⟨y :: u, rfl, fun d q hg => ?_⟩
  have : scan1 S (.run (d + 1) q) y.ty = some (.run d q) := by
    rw [hy]; cases c <;> simp_all [isOpen, isClose, scan1, isSpecial]
  unfold Back
  rw [scan_cons this]
  exact hu d q hg

/-- A special token. -/
theorem special_keep {o : ST} (ho : isSpecial o = true) {f : Str → P α} (hp : ∀ a ts x, x ∈ f a ts → ∃ u, ts = u ++ x.2) :
    Snd (Keep S G) (tok o >>= f) := by
  intro ts x hx
  obtain ⟨a, r, h1, h2⟩ := mem_bind.1 hx
  obtain ⟨y, e, hy, -⟩ := mem_tok.1 h1
  obtain ⟨u, e2⟩ := hp _ _ _ h2
  simp only at e e2
  subst e2; subst e
  refine ⟨y :: u, rfl, fun d q hg => .inr ?_⟩
  rw [scan_cons (s' := .free) (by rw [hy, scan1, ho]; rfl)]
  exact scan_free S u

theorem q_keep {p : P α} {f : α → P β} (hp : Snd (Keep S G) p) (hf : ∀ a, Snd (KeepQ S G) (f a)) : Snd (KeepQ S G) (p >>= f) := by
  intro ts x hx
  obtain ⟨a, r, h1, h2⟩ := mem_bind.1 hx
  obtain ⟨u, e, hu⟩ := hp _ _ h1
  obtain ⟨v, e2, hv⟩ := hf a _ _ h2
  simp only at e e2
  subst e2; subst e
  exact ⟨u ++ v, by simp, fun d q d' q' hg hg' hs => (hu d' q' hg').append (hv d q d' q' hg hg' hs)⟩

theorem colon_keep {f : Str → P α} (hf : ∀ a, Snd (Keep S G) (f a)) : Snd (KeepQ S G) (tok .COLON >>= f) := by
  intro ts x hx
  obtain ⟨a, r, h1, h2⟩ := mem_bind.1 hx
  obtain ⟨y, e, hy, -⟩ := mem_tok.1 h1
  obtain ⟨u, e2, hu⟩ := hf a _ _ h2
  simp only at e e2
  subst e2; subst e
  refine ⟨y :: u, rfl, fun d q d' q' hg hg' hs => ?_⟩
  unfold Back
  rw [scan_cons (by rw [hy]; exact hs)]
  exact hu d q hg

end

/-- Tokens of an expression outside of brackets. -/
def isNeutral (t : ST) : Bool := !isOpen t && !isClose t && t != .COLON && t != .QUESTIONMARK && t != .INCR && t != .DECR

/-- Tokens of a data type outside of brackets. -/
def isTypeTok : ST → Bool
  | .C_IDENTIFIER | .SIMPLE_IDENTIFIER | .ESCAPED_IDENTIFIER | .KW_SAMPLE | .KW_RANDOMIZE | .KW_TYPE_OPTION | .KW_OPTION | .KW_STD => true
  | .KW_THIS | .KW_SUPER | .KW_LOCAL | .KW_DOLAR_ROOT | .KW_DOLAR_UNIT | .DOUBLE_COLON | .HASH => true
  | .KW_BIT | .KW_LOGIC | .KW_REG | .KW_BYTE | .KW_SHORTINT | .KW_INT | .KW_LONGINT | .KW_INTEGER | .KW_TIME | .KW_SHORTREAL | .KW_REAL
  | .KW_REALTIME | .KW_SIGNED | .KW_UNSIGNED | .KW_STRING | .KW_CHANDLE | .KW_VIRTUAL | .KW_EVENT | .KW_ENUM
  | .KW_STRUCT | .KW_UNION | .KW_TYPE => true
  | _ => false

/-- The tokens of an expression keep the states of `G`. -/
structure Cfg (S : ST → Bool) (G : Nat → Nat → Prop) : Prop where
  neutral : ∀ t, isNeutral t = true → Ok1 S G t
  opens : ∀ t, isOpen t = true → OpenOk S G t
  quest : ∀ d q, G d q → ∃ d' q', G d' q' ∧ scan1 S (.run d q) .QUESTIONMARK = some (.run d' q') ∧
    scan1 S (.run d' q') .COLON = some (.run d q)

theorem dep_ok (S : ST → Bool) {t : ST} (h1 : isOpen t = false) (h2 : isClose t = false) : Ok1 S dep t := by
  intro d q h
  simp only [dep] at h
  simp only [scan1, h1, h2]
  cases isSpecial t <;> simp [h]

theorem dep_open (S : ST → Bool) {t : ST} (h : isOpen t = true) : OpenOk S dep t := by
  intro d q hd
  simp only [dep] at hd
  cases t <;> simp_all [isOpen, scan1, isSpecial]

theorem cfg_dep (S : ST → Bool) : Cfg S dep where
  opens t h := dep_open S h
  neutral t h := by
    simp only [isNeutral, Bool.and_eq_true, Bool.not_eq_true'] at h
    exact dep_ok S h.1.1.1.1.1 h.1.1.1.1.2
  quest d q h := by
    refine ⟨d, q, h, ?_, ?_⟩ <;> · simp only [dep] at h; simp [scan1, isSpecial, isOpen, isClose, h]

/-- Nothing else stops. -/
def noS : ST → Bool := fun _ => false
/-- Also outside of brackets. -/
def anyG : Nat → Nat → Prop := fun _ _ => True

theorem cfg_any : Cfg noS anyG where
  opens t h := by
    intro d q _
    cases t <;> simp_all [isOpen, scan1, isSpecial, noS]
  neutral t h := by
    simp only [isNeutral, Bool.and_eq_true, Bool.not_eq_true', bne_iff_ne, ne_eq] at h
    intro d q _
    simp only [scan1, h.1.1.1.1.1, h.1.1.1.1.2, noS, h.1.1.1.2, h.1.1.2]
    cases isSpecial t <;> simp
  quest d q _ := by
    by_cases h : d = 0
    · subst h
      exact ⟨0, q + 1, trivial, by simp [scan1, isSpecial, isOpen, isClose, noS], by simp [scan1, isSpecial, isOpen, isClose, noS]⟩
    · exact ⟨d, q, trivial, by simp [scan1, isSpecial, isOpen, isClose, h], by simp [scan1, isSpecial, isOpen, isClose, h]⟩

/-- Everything but the tokens of data types stops. -/
def typeS : ST → Bool := fun t => !isTypeTok t && t != .LSQUARE_BR

/-- The tokens of a data type keep the states of `G`. -/
structure TCfg (S : ST → Bool) (G : Nat → Nat → Prop) : Prop where
  tok : ∀ t, isTypeTok t = true → Ok1 S G t
  sq : OpenOk S G .LSQUARE_BR

theorem typeS_ok {t : ST} (h : isTypeTok t = true) : Ok1 typeS anyG t := by
  intro d q _
  have h1 : isOpen t = false := by cases t <;> simp_all [isTypeTok, isOpen]
  have h2 : isClose t = false := by cases t <;> simp_all [isTypeTok, isClose]
  have h3 : t ≠ .QUESTIONMARK := by rintro rfl; cases h
  have h4 : t ≠ .COLON := by rintro rfl; cases h
  simp only [scan1, h1, h2, typeS, h, h3, h4]
  cases isSpecial t <;> simp

theorem cfg_type : TCfg typeS anyG where
  tok _ h := typeS_ok h
  sq := by intro d q _; simp [scan1, isSpecial, typeS, isTypeTok, isOpen]

theorem type_neutral {t : ST} (h : isTypeTok t = true) : isNeutral t = true := by
  cases t <;> simp_all [isTypeTok, isNeutral, isOpen, isClose]

/-- The rules as far as they are called in brackets. -/
structure Brk (S : ST → Bool) (E : Env) : Prop where
  expression : ∀ p, Snd (Keep S dep) (E.expression p)
  dataType : Snd (Keep S dep) E.dataType
  lvalue : Snd (Keep S dep) E.lvalue
  concatenation : Snd (Keep S dep) E.concatenation
  pattern : Snd (Keep S dep) E.pattern
  event : Snd (Keep S dep) E.event

section
variable {S : ST → Bool} {G : Nat → Nat → Prop}

theorem ret_keep (a : α) : Snd (Keep S G) (pure a : P α) := Snd.ret (keep_rel S G) a
theorem bind_keep {p : P α} {f : α → P β} (hp : Snd (Keep S G) p) (hf : ∀ a, Snd (Keep S G) (f a)) : Snd (Keep S G) (p >>= f) :=
  Snd.bind (keep_rel S G) hp hf
theorem opt_keep {p : P α} (hp : Snd (Keep S G) p) : Snd (Keep S G) (opt p) := Snd.opt (keep_rel S G) hp
theorem many_keep {p : P α} (hp : Snd (Keep S G) p) : Snd (Keep S G) (many p) := Snd.many (keep_rel S G) hp
theorem sepBy_dep {s : ST} (h1 : isOpen s = false) (h2 : isClose s = false) {p : P α} (hp : Snd (Keep S dep) p) :
    Snd (Keep S dep) (sepBy s p) := Snd.sepBy (keep_rel S dep) (tok_keep (dep_ok S h1 h2)) hp
theorem map_keep {p : P α} (hp : Snd (Keep S G) p) (f : α → β) : Snd (Keep S G) (p >>= fun a => pure (f a)) :=
  bind_keep hp fun _ => ret_keep _

/-- `rcases` for lists of alternatives. -/
macro "alt_cases" : tactic => `(tactic| (refine Snd.alts ?_; simp only [List.forall_mem_cons]))

theorem identifier_keep (hT : TCfg S G) : Snd (Keep S G) identifier :=
  Snd.or (map_keep (tok_keep (hT.tok _ rfl)) _) (Snd.or (map_keep (tok_keep (hT.tok _ rfl)) _) (Snd.or (map_keep (tok_keep (hT.tok _ rfl)) _)
    (map_keep (texts_keep fun x hx => hT.tok x (by revert x; decide)) _)))

theorem nt_type (h : Cfg S G) : TCfg S G := ⟨fun t ht => h.neutral t (type_neutral ht), h.opens _ rfl⟩

theorem Keep.suffix {p : P α} (h : Snd (Keep S dep) p) : ∀ ts x, x ∈ p ts → ∃ u, ts = u ++ x.2 := by
  intro ts x hx
  obtain ⟨u, h, -⟩ := h ts x hx
  exact ⟨u, h⟩

theorem implicit_keep (hT : TCfg S G) : Snd (Keep S G) implicitClassHandle :=
  Snd.or (special_keep rfl fun _ => Keep.suffix (S := S) (bind_keep (opt_keep (bind_keep (tok_keep (dep_ok S rfl rfl)) fun _ =>
    tok_keep (dep_ok S rfl rfl))) fun _ => ret_keep _)) (map_keep (tok_keep (hT.tok _ rfl)) _)

theorem atom_keep (hT : TCfg S G) : Snd (Keep S G) integerAtomType :=
  texts_keep fun x hx => hT.tok x (by revert x; decide)
theorem vector_keep (hT : TCfg S G) : Snd (Keep S G) integerVectorType :=
  texts_keep fun x hx => hT.tok x (by revert x; decide)
theorem integerType_keep (hT : TCfg S G) : Snd (Keep S G) integerType :=
  Snd.or (vector_keep hT) (atom_keep hT)
theorem nonInteger_keep (hT : TCfg S G) : Snd (Keep S G) nonIntegerType :=
  texts_keep fun x hx => hT.tok x (by revert x; decide)
theorem signing_keep (hT : TCfg S G) : Snd (Keep S G) signing :=
  toks_keep fun x hx => hT.tok x.1 (by revert x; decide)
theorem signingOpt_keep (hT : TCfg S G) : Snd (Keep S G) signingOpt :=
  map_keep (opt_keep (signing_keep hT)) _

theorem integral_keep (h : Cfg S G) : Snd (Keep S G) integralNumber := by
  alt_cases
  exact ⟨map_keep (tok_keep (h.neutral _ rfl)) _, bind_keep (opt_keep (tok_keep (h.neutral _ rfl))) fun _ =>
    map_keep (tok_keep (h.neutral _ rfl)) _, map_keep (tok_keep (h.neutral _ rfl)) _, by simp⟩

theorem literal_keep (h : Cfg S G) : Snd (Keep S G) primaryLiteral := by
  alt_cases
  exact ⟨map_keep (tok_keep (h.neutral _ rfl)) _, map_keep (tok_keep (h.neutral _ rfl)) _, map_keep (tok_keep (h.neutral _ rfl)) _,
    map_keep (integral_keep h) _, map_keep (texts_keep fun x hx => h.neutral x (by revert x; decide)) _,
    map_keep (tok_keep (h.neutral _ rfl)) _, map_keep (tok_keep (h.neutral _ rfl)) _, map_keep (tok_keep (h.neutral _ rfl)) _, by simp⟩

theorem method_keep (h : Cfg S G) : Snd (Keep S G) arrayMethodName :=
  Snd.or (texts_keep fun x hx => h.neutral x (by revert x; decide)) (map_keep (identifier_keep (nt_type h)) _)

theorem methodOpt_keep (h : Cfg S G) : Snd (Keep S G) methodOpt :=
  opt_keep (bind_keep (tok_keep (h.neutral _ rfl)) fun _ => method_keep h)

theorem ops_keep {l : List (ST × α)} (h : Cfg S G) (hl : ∀ x ∈ l, isNeutral x.1 = true) : Snd (Keep S G) (toks l) :=
  toks_keep fun x hx => h.neutral _ (hl x hx)

variable {E : Env} (hE : Brk S E)

/-- Tokens in brackets. -/
theorem tokd {t : ST} (h1 : isOpen t = false) (h2 : isClose t = false) : Snd (Keep S dep) (tok t) := tok_keep (dep_ok S h1 h2)
theorem idd : Snd (Keep S dep) identifier := identifier_keep (nt_type (cfg_dep S))

include hE

theorem attributeInstance_keep (h : Cfg S G) : Snd (Keep S G) (attributeInstance E) :=
  open_keep (h.opens _ rfl) fun _ => in_keep (tokd rfl rfl) fun _ => in_keep (sepBy_dep rfl rfl (bind_keep idd fun _ =>
    opt_keep (bind_keep (tokd rfl rfl) fun _ => hE.expression 0))) fun _ => in_keep (tokd rfl rfl) fun _ =>
    close_keep rfl fun _ => ret_keep _

theorem attributes_keep (h : Cfg S G) : Snd (Keep S G) (attributes E) := many_keep (attributeInstance_keep hE h)

theorem mintypmax_dep : Snd (Keep S dep) (mintypmax E) :=
  bind_keep (hE.expression 0) fun _ => bind_keep (opt_keep (bind_keep (tokd rfl rfl) fun _ => bind_keep (hE.expression 0) fun _ =>
    bind_keep (tokd rfl rfl) fun _ => bind_keep (hE.expression 0) fun _ => ret_keep _)) fun _ => ret_keep _

theorem paramExpression_dep : Snd (Keep S dep) (paramExpression E) :=
  Snd.or (map_keep (mintypmax_dep hE) _) (map_keep hE.dataType _)

theorem namedParameter_dep : Snd (Keep S dep) (namedParameterAssignment E) :=
  bind_keep (tokd rfl rfl) fun _ => bind_keep idd fun _ => open_keep (dep_open S rfl) fun _ => in_keep (opt_keep (paramExpression_dep hE)) fun _ =>
    close_keep rfl fun _ => ret_keep _

theorem pva_keep : Snd (Keep S G) (parameterValueAssignment E) :=
  special_keep rfl fun _ => Keep.suffix (S := S) <| open_keep (dep_open S rfl) fun _ => in_keep (opt_keep (Snd.or
    (map_keep (sepBy_dep rfl rfl (paramExpression_dep hE)) _) (map_keep (sepBy_dep rfl rfl (namedParameter_dep hE)) _))) fun _ =>
    close_keep rfl fun _ => ret_keep _

theorem pvaOpt_keep : Snd (Keep S G) (pvaOpt E) := map_keep (opt_keep (pva_keep hE)) _

theorem pathItem_keep (hT : TCfg S G) : Snd (Keep S G) (pathItem E) :=
  bind_keep (identifier_keep hT) fun _ => map_keep (pvaOpt_keep hE) _

theorem pathHead_keep (hT : TCfg S G) : Snd (Keep S G) (pathHead E) := by
  alt_cases
  exact ⟨map_keep (tok_keep (hT.tok _ rfl)) _, map_keep (implicit_keep hT) _, map_keep (tok_keep (hT.tok _ rfl)) _,
    map_keep (pathItem_keep hE hT) _, by simp⟩

theorem path_keep (hT : TCfg S G) : Snd (Keep S G) (path E) :=
  bind_keep (opt_keep (bind_keep (tok_keep (hT.tok _ rfl)) fun _ => tok_keep (hT.tok _ rfl))) fun _ => bind_keep (pathHead_keep hE hT) fun _ =>
    bind_keep (many_keep (bind_keep (tok_keep (hT.tok _ rfl)) fun _ => pathItem_keep hE hT)) fun _ => ret_keep _

theorem bitSelect_keep (h : Cfg S G) : Snd (Keep S G) (bitSelect E) :=
  open_keep (h.opens _ rfl) fun _ => in_keep (hE.expression 0) fun _ => close_keep rfl fun _ => ret_keep _

omit hE in
theorem plusMinus_dep : Snd (Keep S dep) operatorPlusMinus := ops_keep (cfg_dep S) (by decide)

theorem arrayRange_dep : Snd (Keep S dep) (arrayRange E) :=
  bind_keep (hE.expression 0) fun _ => bind_keep (opt_keep (bind_keep (opt_keep plusMinus_dep) fun _ => bind_keep (tokd rfl rfl) fun _ =>
    bind_keep (hE.expression 0) fun _ => ret_keep _)) fun _ => ret_keep _

theorem dimension_keep (hT : TCfg S G) : Snd (Keep S G) (variableDimension E) := by
  refine open_keep hT.sq fun _ => in_keep (opt_keep ?_) fun _ => close_keep rfl fun _ => ret_keep _
  alt_cases
  exact ⟨map_keep (tokd rfl rfl) _, map_keep hE.dataType _, map_keep (arrayRange_dep hE) _, by simp⟩

theorem typeReference_keep : Snd (Keep S G) (typeReference E) :=
  special_keep rfl fun _ => Keep.suffix (S := S) <| open_keep (dep_open S rfl) fun _ => in_keep (Snd.or (map_keep (hE.expression 0) _) (map_keep hE.dataType _))
    fun _ => close_keep rfl fun _ => ret_keep _

omit hE in
theorem primitive_keep (hT : TCfg S G) : Snd (Keep S G) dataTypePrimitive := by
  alt_cases
  exact ⟨bind_keep (vector_keep hT) fun _ => map_keep (signingOpt_keep hT) _,
    bind_keep (atom_keep hT) fun _ => map_keep (signingOpt_keep hT) _, map_keep (nonInteger_keep hT) _, by simp⟩

omit hE in
theorem suffix_map {p : P α} (h : ∀ ts x, x ∈ p ts → ∃ u, ts = u ++ x.2) (b : β) :
    ∀ ts x, x ∈ (p >>= fun _ => (pure b : P β)) ts → ∃ u, ts = u ++ x.2 := by
  intro ts x hx
  obtain ⟨a, r, h1, h2⟩ := mem_bind.1 hx
  rw [mem_pure] at h2
  subst h2
  exact h _ _ h1

omit hE in
theorem specials_keep {l : List ST} (hl : ∀ t ∈ l, isSpecial t = true) {p : P α} (hp : ∀ ts x, x ∈ p ts → ∃ u, ts = u ++ x.2) :
    Snd (Keep S G) (texts l >>= fun _ => p) := by
  intro ts x hx
  obtain ⟨a, r, h1, h2⟩ := mem_bind.1 hx
  obtain ⟨q, hq, h3⟩ := mem_alts.1 h1
  obtain ⟨t, ht, rfl⟩ := List.mem_map.1 hq
  exact special_keep (hl t ht) (fun _ => hp) _ _ (mem_bind.2 ⟨a, r, h3, h2⟩)

theorem base_keep (B : Rules) (hT : TCfg S G) : Snd (Keep S G) (dataTypeBase B E) := by
  alt_cases
  exact ⟨map_keep (primitive_keep hT) _, special_keep rfl fun _ => (suffix_map B.enumBody_suffix _),
    specials_keep (by decide) (suffix_map B.structBody_suffix _), map_keep (path_keep hE hT) _, by simp⟩

theorem dataType_keep (B : Rules) (hT : TCfg S G) : Snd (Keep S G) (dataType B E) := by
  alt_cases
  exact ⟨map_keep (tok_keep (hT.tok _ rfl)) _, map_keep (tok_keep (hT.tok _ rfl)) _, special_keep rfl fun _ => Keep.suffix (S := S)
    (bind_keep (opt_keep (tokd rfl rfl)) fun _ => bind_keep idd fun _ => bind_keep (pvaOpt_keep hE) fun _ =>
    bind_keep (opt_keep (bind_keep (tokd rfl rfl) fun _ => idd)) fun _ => ret_keep _),
    map_keep (tok_keep (hT.tok _ rfl)) _, bind_keep (base_keep hE B hT) fun _ => bind_keep (many_keep (dimension_keep hE hT)) fun _ => ret_keep _,
    map_keep (typeReference_keep hE) _, by simp⟩

theorem namedArgument_dep : Snd (Keep S dep) (namedArgument E) :=
  bind_keep (tokd rfl rfl) fun _ => bind_keep idd fun _ => open_keep (dep_open S rfl) fun _ => in_keep (opt_keep (hE.expression 0)) fun _ =>
    close_keep rfl fun _ => ret_keep _

theorem commaExpression_dep : Snd (Keep S dep) (commaExpression E) :=
  bind_keep (tokd rfl rfl) fun _ => bind_keep (opt_keep (hE.expression 0)) fun _ => ret_keep _

theorem listOfArguments_dep : Snd (Keep S dep) (listOfArguments E) := by
  refine bind_keep ?_ fun _ => bind_keep (many_keep (bind_keep (tokd rfl rfl) fun _ => namedArgument_dep hE)) fun _ => ret_keep _
  alt_cases
  exact ⟨map_keep (namedArgument_dep hE) _, bind_keep (tokd rfl rfl) fun _ => map_keep (namedArgument_dep hE) _,
    bind_keep (hE.expression 0) fun _ => map_keep (many_keep (commaExpression_dep hE)) _,
    map_keep (many1_keep (commaExpression_dep hE)) _, by simp⟩

theorem clockingEvent_dep : Snd (Keep S dep) (clockingEvent E) :=
  bind_keep (tokd rfl rfl) fun _ => Snd.or (skip_keep idd) (open_keep (dep_open S rfl) fun _ => in_keep hE.event fun _ => close_keep rfl fun _ => ret_keep _)

theorem eventItem_dep : Snd (Keep S dep) (eventItem E) :=
  Snd.or (open_keep (dep_open S rfl) fun _ => in_keep hE.event fun _ => close_keep rfl fun _ => ret_keep _)
    (bind_keep (opt_keep (texts_keep fun x hx => (cfg_dep S).neutral x (by revert x; decide))) fun _ => bind_keep (hE.expression 0) fun _ =>
      bind_keep (opt_keep (bind_keep (tokd rfl rfl) fun _ => hE.expression 0)) fun _ => ret_keep _)

theorem eventExpression_dep : Snd (Keep S dep) (eventExpression E) :=
  bind_keep (eventItem_dep hE) fun _ => bind_keep (many_keep (bind_keep
    (texts_keep fun x hx => (cfg_dep S).neutral x (by revert x; decide)) fun _ => eventItem_dep hE)) fun _ => ret_keep _

theorem concatenation_keep (h : Cfg S G) : Snd (Keep S G) (concatenation E) :=
  open_keep (h.opens _ rfl) fun _ => in_keep (opt_keep (bind_keep (hE.expression 0) fun _ => bind_keep (opt_keep (Snd.or
    (map_keep hE.concatenation _) (map_keep (many1_keep (bind_keep (tokd rfl rfl) fun _ => hE.expression 0)) _))) fun _ => ret_keep _)) fun _ =>
    close_keep rfl fun _ => ret_keep _

theorem sliceSize_dep : Snd (Keep S dep) (sliceSize E) := by
  have hT := nt_type (cfg_dep S)
  alt_cases
  exact ⟨skip_keep (integerType_keep hT), skip_keep (nonInteger_keep hT), skip_keep (path_keep hE hT), skip_keep (hE.expression 0), by simp⟩

theorem streamExpression_dep : Snd (Keep S dep) (streamExpression E) :=
  bind_keep (hE.expression 0) fun _ => bind_keep (opt_keep (bind_keep (tokd rfl rfl) fun _ => open_keep (dep_open S rfl) fun _ =>
    in_keep (arrayRange_dep hE) fun _ => close_keep rfl fun _ => ret_keep _)) fun _ => ret_keep _

theorem streaming_keep (h : Cfg S G) : Snd (Keep S G) (streamingConcatenation E) :=
  open_keep (h.opens _ rfl) fun _ => in_keep (texts_keep fun x hx => (cfg_dep S).neutral x (by revert x; decide)) fun _ =>
    in_keep (opt_keep (sliceSize_dep hE)) fun _ => by
      have h : Snd (Keep S dep) (tok .LBRACE >>= fun _ => sepBy .COMMA (streamExpression E) >>= fun _ => tok .RBRACE >>= fun _ => pure ()) :=
        open_keep (dep_open S rfl) fun _ => in_keep (sepBy_dep rfl rfl (streamExpression_dep hE)) fun _ => close_keep rfl fun _ => ret_keep _
      intro ts x hx
      obtain ⟨a1, r1, h1, hx⟩ := mem_bind.1 hx
      obtain ⟨a2, r2, h2, hx⟩ := mem_bind.1 hx
      obtain ⟨a3, r3, h3, hx⟩ := mem_bind.1 hx
      refine in_keep (f := fun _ => tok .RBRACE >>= fun _ => pure ()) h (fun _ => close_keep rfl fun _ => ret_keep ()) ts x ?_
      exact mem_bind.2 ⟨(), r3, mem_bind.2 ⟨a1, r1, h1, mem_bind.2 ⟨a2, r2, h2, mem_bind.2 ⟨a3, r3, h3, mem_pure.2 rfl⟩⟩⟩, hx⟩

theorem patternKey_dep : Snd (Keep S dep) (assignmentPatternKey E) := by
  have hT := nt_type (cfg_dep S)
  alt_cases
  exact ⟨map_keep (tokd rfl rfl) _, map_keep (integerType_keep hT) _, map_keep (nonInteger_keep hT) _, map_keep (path_keep hE hT) _, by simp⟩

theorem keyed_dep {k : P Key} (hk : Snd (Keep S dep) k) : Snd (Keep S dep) (keyed E k) :=
  bind_keep hk fun _ => bind_keep (tokd rfl rfl) fun _ => bind_keep (hE.expression 0) fun _ => ret_keep _

theorem assignmentPattern_keep (h : Cfg S G) : Snd (Keep S G) (assignmentPattern E) := by
  refine open_keep (h.opens _ rfl) fun _ => in_keep (opt_keep ?_) fun _ => close_keep rfl fun _ => ret_keep _
  alt_cases
  exact ⟨map_keep (sepBy_dep rfl rfl (hE.expression 0)) _,
    map_keep (sepBy_dep rfl rfl (keyed_dep hE (Snd.or (map_keep idd _) (patternKey_dep hE)))) _,
    map_keep (sepBy_dep rfl rfl (keyed_dep hE (Snd.or (map_keep (hE.expression 0) _) (patternKey_dep hE)))) _,
    bind_keep (hE.expression 0) fun _ => open_keep (dep_open S rfl) fun _ => in_keep (sepBy_dep rfl rfl (hE.expression 0)) fun _ =>
      close_keep rfl fun _ => ret_keep _, by simp⟩

theorem patternType_keep (hT : TCfg S G) : Snd (Keep S G) (patternType E) := by
  alt_cases
  exact ⟨skip_keep (path_keep hE hT), skip_keep (atom_keep hT), skip_keep (typeReference_keep hE), by simp⟩

theorem patternExpression_keep (h : Cfg S G) : Snd (Keep S G) (assignmentPatternExpression E) :=
  have hT := nt_type h
  bind_keep (opt_keep (patternType_keep hE hT)) fun _ => bind_keep (assignmentPattern_keep hE h) fun _ => ret_keep _

theorem member_keep (h : Cfg S G) : Snd (Keep S G) (member E) :=
  bind_keep (tok_keep (h.neutral _ rfl)) fun _ => bind_keep (identifier_keep (nt_type h)) fun _ => bind_keep (many_keep (bitSelect_keep hE h)) fun _ =>
    ret_keep _

theorem hierSel_keep (h : Cfg S G) : Snd (Keep S G) (hierSel E) :=
  have hT := nt_type h
  bind_keep (path_keep hE hT) fun _ => bind_keep (many_keep (bitSelect_keep hE h)) fun _ => bind_keep (many_keep (member_keep hE h)) fun _ =>
    bind_keep (opt_keep (open_keep (h.opens _ rfl) fun _ => in_keep (hE.expression 0) fun _ => in_keep (opt_keep plusMinus_dep) fun _ =>
      in_keep (tokd rfl rfl) fun _ => in_keep (hE.expression 0) fun _ => close_keep rfl fun _ => ret_keep _)) fun _ => ret_keep _

theorem lvalue_keep (h : Cfg S G) : Snd (Keep S G) (lvalue E) := by
  have hT := nt_type h
  alt_cases
  exact ⟨open_keep (h.opens _ rfl) fun _ => in_keep (sepBy_dep rfl rfl hE.lvalue) fun _ => close_keep rfl fun _ => ret_keep _,
    map_keep (hierSel_keep hE h) _, bind_keep (opt_keep (patternType_keep hE hT)) fun _ => open_keep (h.opens _ rfl) fun _ =>
      in_keep (sepBy_dep rfl rfl hE.lvalue) fun _ => close_keep rfl fun _ => ret_keep _,
    bind_keep (streaming_keep hE h) fun _ => ret_keep _, by simp⟩

theorem tfCall_keep (h : Cfg S G) : Snd (Keep S G) (tfCall E) := by
  have hc : Snd (Keep S dep) (opt (do let _ ← tok .COMMA; clockingEvent E)) :=
    opt_keep (bind_keep (tokd rfl rfl) fun _ => clockingEvent_dep hE)
  refine bind_keep (texts_keep fun x hx => h.neutral x (by revert x; decide)) fun _ => bind_keep (opt_keep (Snd.or ?_ ?_)) fun _ => ret_keep _
  · exact open_keep (h.opens _ rfl) fun _ => in_keep hE.dataType fun _ => in_keep (opt_keep (bind_keep (tokd rfl rfl) fun _ => listOfArguments_dep hE)) fun _ =>
      in_keep hc fun _ => close_keep rfl fun _ => ret_keep _
  · exact open_keep (h.opens _ rfl) fun _ => in_keep (listOfArguments_dep hE) fun _ => in_keep hc fun _ => close_keep rfl fun _ => ret_keep _

theorem primaryHead_keep (B : Rules) (h : Cfg S G) : Snd (Keep S G) (primaryHead B E) := by
  have hT := nt_type h
  alt_cases
  refine ⟨map_keep (literal_keep h) _, map_keep (path_keep hE hT) _,
    open_keep (h.opens _ rfl) fun _ => in_keep (mintypmax_dep hE) fun _ => close_keep rfl fun _ => ret_keep _,
    bind_keep ?_ fun _ => bind_keep (tok_keep (h.neutral _ rfl)) fun _ => open_keep (h.opens _ rfl) fun _ => in_keep (hE.expression 0) fun _ =>
      close_keep rfl fun _ => ret_keep _,
    map_keep (concatenation_keep hE h) _, bind_keep (streaming_keep hE h) fun _ => ret_keep _, tfCall_keep hE h,
    bind_keep (opt_keep (bind_keep (tok_keep (h.neutral _ rfl)) fun _ => tok_keep (h.neutral _ rfl))) fun _ =>
      bind_keep (special_keep rfl fun _ => B.randomize_suffix) fun _ => ret_keep _,
    map_keep (patternExpression_keep hE h) _, map_keep (typeReference_keep hE) _, by simp⟩
  alt_cases
  exact ⟨skip_keep (tok_keep (h.neutral _ rfl)), skip_keep (tok_keep (h.neutral _ rfl)), skip_keep (integerType_keep hT),
    skip_keep (nonInteger_keep hT), skip_keep (signing_keep hT), by simp⟩

theorem withClause_keep (h : Cfg S G) : Snd (Keep S G) (withClause E) :=
  bind_keep (tok_keep (h.neutral _ rfl)) fun _ => open_keep (h.opens _ rfl) fun _ => in_keep (hE.expression 0) fun _ => close_keep rfl fun _ => ret_keep _

theorem primaryStep_keep (B : Rules) (h : Cfg S G) (p : Prim) : Snd (Keep S G) (primaryStep B E p) := by
  have hT := nt_type h
  alt_cases
  exact ⟨bind_keep (tok_keep (h.neutral _ rfl)) fun _ => open_keep (h.opens _ rfl) fun _ => in_keep (hE.expression 0) fun _ =>
      close_keep rfl fun _ => ret_keep _,
    map_keep (bitSelect_keep hE h) _, bind_keep (tok_keep (h.neutral _ rfl)) fun _ => map_keep (identifier_keep hT) _,
    open_keep (h.opens _ rfl) fun _ => in_keep (arrayRange_dep hE) fun _ => close_keep rfl fun _ => ret_keep _,
    bind_keep (tok_keep (h.neutral _ rfl)) fun _ => bind_keep (special_keep rfl fun _ => B.randomize_suffix) fun _ => ret_keep _,
    bind_keep (methodOpt_keep h) fun _ => bind_keep (attributes_keep hE h) fun _ => open_keep (h.opens _ rfl) fun _ =>
      in_keep (opt_keep (listOfArguments_dep hE)) fun _ => close_keep rfl fun _ => bind_keep (opt_keep (withClause_keep hE h)) fun _ =>
      ret_keep _,
    bind_keep (tok_keep (h.neutral _ rfl)) fun _ => map_keep (method_keep h) _,
    bind_keep (methodOpt_keep h) fun _ => bind_keep (attributes_keep hE h) fun _ => map_keep (withClause_keep hE h) _, by simp⟩

theorem primary_keep (B : Rules) (h : Cfg S G) : Snd (Keep S G) (primary B E) :=
  bind_keep (primaryHead_keep hE B h) fun p => Snd.loop (keep_rel S G) (primaryStep_keep hE B h) p

omit hE in
/-- The rules which expressions call outside of brackets. -/
structure Sound (S : ST → Bool) (G : Nat → Nat → Prop) (E : Env) : Prop where
  expression : ∀ p, Snd (Keep S G) (E.expression p)
  lvalue : Snd (Keep S G) E.lvalue
  pattern : Snd (Keep S G) E.pattern

variable (hG : Sound S G E)
include hG

theorem incOrDec_keep (h : Cfg S G) (hI : Ok1 S G .INCR) (hD : Ok1 S G .DECR) : Snd (Keep S G) (incOrDec E) :=
  have ho : Snd (Keep S G) incOrDecOperator := toks_keep (by simpa using ⟨hI, hD⟩)
  Snd.or (bind_keep ho fun _ => bind_keep (attributes_keep hE h) fun _ => map_keep hG.lvalue _)
    (bind_keep hG.lvalue fun _ => bind_keep (attributes_keep hE h) fun _ => map_keep ho _)

theorem expressionHead_keep (B : Rules) (h : Cfg S G) (hI : Ok1 S G .INCR) (hD : Ok1 S G .DECR) : Snd (Keep S G) (expressionHead B E) := by
  have hT := nt_type h
  alt_cases
  exact ⟨map_keep (primary_keep hE B h) _, open_keep (h.opens _ rfl) fun _ => in_keep hE.lvalue fun _ =>
      in_keep (texts_keep fun x hx => (cfg_dep S).neutral x (by revert x; decide)) fun _ => in_keep (hE.expression 0) fun _ =>
      close_keep rfl fun _ => ret_keep _,
    bind_keep (tok_keep (h.neutral _ rfl)) fun _ => bind_keep (identifier_keep hT) fun _ => bind_keep (opt_keep (hG.expression 0)) fun _ =>
      ret_keep _,
    bind_keep (ops_keep h (by decide)) fun _ => bind_keep (attributes_keep hE h) fun _ => map_keep (primary_keep hE B h) _,
    incOrDec_keep hE hG h hI hD, by simp⟩

theorem binary_keep (h : Cfg S G) (a : Exp) {o : P BinOp} (ho : Snd (Keep S G) o) (q : Nat) : Snd (Keep S G) (binary E a o q) :=
  bind_keep ho fun _ => bind_keep (attributes_keep hE h) fun _ => map_keep (hG.expression q) _

omit hE in
theorem matches_keep (h : Cfg S G) : Snd (Keep S G) (matchesOpt E) :=
  opt_keep (bind_keep (tok_keep (h.neutral _ rfl)) fun _ => hG.pattern)

omit hG in
theorem valueRange_dep : Snd (Keep S dep) (valueRange E) :=
  Snd.or (open_keep (dep_open S rfl) fun _ => in_keep (hE.expression 0) fun _ => in_keep (opt_keep (bind_keep (tokd rfl rfl) fun _ => hE.expression 0)) fun _ =>
    close_keep rfl fun _ => ret_keep _) (skip_keep (hE.expression 0))

omit hE hG in
theorem quest_keep (h : Cfg S G) {f : Str → P α} (hf : ∀ a, Snd (KeepQ S G) (f a)) : Snd (Keep S G) (tok .QUESTIONMARK >>= f) := by
  intro ts x hx
  obtain ⟨a, r, h1, h2⟩ := mem_bind.1 hx
  obtain ⟨y, e, hy, -⟩ := mem_tok.1 h1
  obtain ⟨u, e2, hu⟩ := hf a _ _ h2
  simp only at e e2
  subst e2; subst e
  refine ⟨y :: u, rfl, fun d q hg => ?_⟩
  obtain ⟨d', q', h3, h4, h5⟩ := h.quest d q hg
  unfold Back
  rw [scan_cons (by rw [hy]; exact h4)]
  exact hu d q d' q' hg h3 h5

theorem expressionStep_keep (h : Cfg S G) (p : Nat) (a : Exp) : Snd (Keep S G) (expressionStep E p a) := by
  have hb : ∀ (l : List (ST × BinOp)) (q : Nat), (∀ x ∈ l, isNeutral x.1 = true) → Snd (Keep S G) (binary E a (toks l) q) :=
    fun l q hl => binary_keep hE hG h a (ops_keep h hl) q
  alt_cases
  refine ⟨Snd.prec (hb _ _ (by decide)) _ _, Snd.prec (hb _ _ (by decide)) _ _, Snd.prec (hb _ _ (by decide)) _ _,
    Snd.prec (hb _ _ (by decide)) _ _, Snd.prec (hb _ _ (by decide)) _ _, Snd.prec ?_ _ _, Snd.prec (hb _ _ (by decide)) _ _,
    Snd.prec (hb _ _ (by decide)) _ _, Snd.prec (hb _ _ (by decide)) _ _, Snd.prec (hb _ _ (by decide)) _ _,
    Snd.prec (hb _ _ (by decide)) _ _, Snd.prec (hb _ _ (by decide)) _ _, Snd.prec ?_ _ _, Snd.prec ?_ _ _,
    Snd.prec (hb _ _ (by decide)) _ _, by simp⟩
  · exact bind_keep (tok_keep (h.neutral _ rfl)) fun _ => open_keep (h.opens _ rfl) fun _ => in_keep (sepBy_dep rfl rfl (valueRange_dep hE)) fun _ =>
      close_keep rfl fun _ => ret_keep _
  · exact bind_keep (matches_keep hG h) fun _ => bind_keep (tok_keep (h.neutral _ rfl)) fun _ => bind_keep (hG.expression 0) fun _ =>
      bind_keep (matches_keep hG h) fun _ => ret_keep _
  · exact bind_keep (matches_keep hG h) fun _ => quest_keep h fun _ => q_keep (attributes_keep hE h) fun _ => q_keep (hG.expression 0) fun _ =>
      colon_keep fun _ => map_keep (hG.expression 2) _

theorem expressionRule_keep (B : Rules) (h : Cfg S G) (hI : Ok1 S G .INCR) (hD : Ok1 S G .DECR) (p : Nat) : Snd (Keep S G) (expressionRule B E p) :=
  bind_keep (expressionHead_keep hE hG B h hI hD) fun a => Snd.loop (keep_rel S G) (expressionStep_keep hE hG h p) a

theorem pattern_keep (h : Cfg S G) : Snd (Keep S G) (pattern E) := by
  have hT := nt_type h
  alt_cases
  exact ⟨bind_keep (tok_keep (h.neutral _ rfl)) fun _ => Snd.or (skip_keep (tok_keep (h.neutral _ rfl))) (skip_keep (identifier_keep hT)),
    bind_keep (tok_keep (h.neutral _ rfl)) fun _ => bind_keep (identifier_keep hT) fun _ => bind_keep (opt_keep hG.pattern) fun _ => ret_keep _,
    open_keep (h.opens _ rfl) fun _ => in_keep (Snd.or (sepBy_dep rfl rfl hE.pattern) (sepBy_dep rfl rfl (bind_keep idd fun _ =>
      bind_keep (tokd rfl rfl) fun _ => hE.pattern))) fun _ => close_keep rfl fun _ => ret_keep _,
    skip_keep (hG.expression 0), by simp⟩

theorem Sound.next (B : Rules) (h : Cfg S G) (hI : Ok1 S G .INCR) (hD : Ok1 S G .DECR) : Sound S G (E.next B) where
  expression := expressionRule_keep hE hG B h hI hD
  lvalue := lvalue_keep hE h
  pattern := pattern_keep hE hG h

end

theorem Brk.sound {S : ST → Bool} {E : Env} (h : Brk S E) : Sound S dep E := ⟨h.expression, h.lvalue, h.pattern⟩

theorem Brk.next {S : ST → Bool} {E : Env} (h : Brk S E) (B : Rules) : Brk S (E.next B) :=
  have hs := h.sound.next h B (cfg_dep S) (dep_ok S rfl rfl) (dep_ok S rfl rfl)
  { expression := hs.expression, lvalue := hs.lvalue, pattern := hs.pattern
    dataType := dataType_keep h B (nt_type (cfg_dep S))
    concatenation := concatenation_keep h (cfg_dep S)
    event := eventExpression_dep h }

/-- In brackets the rules keep the brackets together. -/
theorem brk_env (B : Rules) (S : ST → Bool) : ∀ n, Brk S (env B n)
  | 0 => ⟨fun _ => Snd.fail, Snd.fail, Snd.fail, Snd.fail, Snd.fail, Snd.fail⟩
  | n + 1 => (brk_env B S n).next B

/-- Also outside of brackets. -/
theorem sound_env (B : Rules) : ∀ n, Sound noS anyG (env B n)
  | 0 => ⟨fun _ => Snd.fail, Snd.fail, Snd.fail⟩
  | n + 1 => (sound_env B n).next (brk_env B noS n) B cfg_any (fun _ _ _ => .inl (by simp [scan1, isSpecial, isOpen, isClose, noS]))
    (fun _ _ _ => .inl (by simp [scan1, isSpecial, isOpen, isClose, noS]))

/-- A data type has only its tokens outside of brackets. -/
theorem type_env (B : Rules) : ∀ n, Snd (Keep typeS anyG) (env B n).dataType
  | 0 => Snd.fail
  | n + 1 => dataType_keep (brk_env B typeS n) B cfg_type

end Verif.Sv
