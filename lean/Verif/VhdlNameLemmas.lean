import Verif.VhdlParseLemmas
/-!
# Where names and subtypes can end
-/
namespace Verif.Vhdl
open P

variable {α β : Type}

/-- Type of the next token. -/
def next (r : List VTok) : Option VT := r.head?.map VTok.ty

@[simp] theorem next_cons (t : VTok) (r : List VTok) : next (t :: r) = some t.ty := rfl
@[simp] theorem next_nil : next [] = none := rfl

theorem tok_next {t : VT} {r : List VTok} (h : next r ≠ some t) : tok t r = [] := by
  cases r with
  | nil => rfl
  | cons y s => exact tok_neg (fun hy => h (by rw [next_cons, hy])) s

theorem toks_next {l : List (VT × α)} {r : List VTok} (h : ∀ t a, (t, a) ∈ l → next r ≠ some t) : toks l r = [] := by
  cases r with
  | nil => exact toks_nil l
  | cons y s => exact toks_neg (fun a ha => h _ a ha rfl) s

/-- Tokens which begin a name. -/
def nameStart : VT → Bool
  | .BASIC_IDENTIFIER => true
  | .EXTENDED_IDENTIFIER => true
  | .STRING_LITERAL => true
  | .CHARACTER_LITERAL => true
  | .SHIFT_LEFT => true
  | _ => false
/-- Tokens which begin the next part of a name. -/
def partStart : VT → Bool
  | .LPAREN => true
  | .LSQUARE_BR => true
  | .DOT => true
  | .APOSTROPHE => true
  | _ => false
/-- Binary operators. -/
def opTok : VT → Bool
  | .DOUBLESTAR => true
  | .MUL => true
  | .DIV => true
  | .kw .MOD => true
  | .kw .REM => true
  | .PLUS => true
  | .MINUS => true
  | .AMPERSAND => true
  | .kw .SLL => true
  | .kw .SRL => true
  | .kw .SLA => true
  | .kw .SRA => true
  | .kw .ROL => true
  | .kw .ROR => true
  | .EQ => true
  | .NE => true
  | .LT => true
  | .CONASGN => true
  | .GT => true
  | .GE => true
  | .EQ_MATCH => true
  | .NE_MATCH => true
  | .LT_MATCH => true
  | .LE_MATCH => true
  | .GT_MATCH => true
  | .GE_MATCH => true
  | .kw .AND => true
  | .kw .OR => true
  | .kw .NAND => true
  | .kw .NOR => true
  | .kw .XOR => true
  | .kw .XNOR => true
  | _ => false
/-- Tokens which begin a primary. -/
def primStart : VT → Bool
  | .DECIMAL_LITERAL => true
  | .BASED_LITERAL => true
  | .BIT_STRING_LITERAL => true
  | .kw .NULL => true
  | .kw .NEW => true
  | .LPAREN => true
  | t => nameStart t
/-- Tokens which begin an expression. -/
def expStart : VT → Bool
  | .COND_OP => true
  | .PLUS => true
  | .MINUS => true
  | .kw .ABS => true
  | .kw .NOT => true
  | .kw .AND => true
  | .kw .OR => true
  | .kw .NAND => true
  | .kw .NOR => true
  | .kw .XOR => true
  | .kw .XNOR => true
  | t => primStart t

theorem primStart_expStart {t : VT} (h : primStart t = true) : expStart t = true := by
  unfold expStart; split <;> first | rfl | exact h
theorem nameStart_primStart {t : VT} (h : nameStart t = true) : primStart t = true := by
  unfold primStart; split <;> first | rfl | exact h

/-! ## Names -/

/-- One more part of a name. -/
inductive PartStep : List VTok → List VTok → Prop
  | grp {o c : VTok} {u r : List VTok} (ho : o.ty = .LPAREN ∨ o.ty = .LSQUARE_BR) (hc : isClose c.ty = true) (hu : Bal u) :
      PartStep (o :: (u ++ c :: r)) r
  | dot {d x : VTok} {r : List VTok} (hd : d.ty = .DOT) : PartStep (d :: x :: r) r
  | attr {a x : VTok} {r : List VTok} (ha : a.ty = .APOSTROPHE) (hx : isDesig x.ty = true) : PartStep (a :: x :: r) r

/-- Some more parts of a name. -/
inductive Parts : List VTok → List VTok → Prop
  | refl {a : List VTok} : Parts a a
  | step {a b c : List VTok} (h1 : PartStep a b) (h2 : Parts b c) : Parts a c

/-- The first part of a name. -/
inductive NameHead : List VTok → List VTok → Prop
  | lit {x : VTok} {r : List VTok} (h : nameStart x.ty = true) (h2 : x.ty ≠ .SHIFT_LEFT) : NameHead (x :: r) r
  | ext {o c : VTok} {u r : List VTok} (ho : o.ty = .SHIFT_LEFT) (hc : isClose c.ty = true) (hu : Bal u) : NameHead (o :: (u ++ c :: r)) r

/-- A name can end there. -/
def NameTo (ts r : List VTok) : Prop := ∃ m, NameHead ts m ∧ Parts m r

/-- There is no further part. -/
def Stuck (r : List VTok) : Prop := ∀ s, ¬ PartStep r s

theorem PartStep.det {a b c : List VTok} (h1 : PartStep a b) (h2 : PartStep a c) : b = c := by
  cases h1 with
  | grp ho hc hu =>
    generalize ha : _ :: (_ ++ _ :: b) = a at h2
    cases h2 with
    | grp ho' hc' hu' =>
      cases ha' : (List.cons.inj ha).1
      exact (hu.unique hu' hc hc' (List.cons.inj ha).2).2.2
    | dot hd => have := (List.cons.inj ha).1; subst this; rw [hd] at ho; simp at ho
    | attr hd => have := (List.cons.inj ha).1; subst this; rw [hd] at ho; simp at ho
  | dot hd =>
    generalize ha : _ :: _ :: b = a at h2
    cases h2 with
    | grp ho' hc' hu' => have := (List.cons.inj ha).1; subst this; rw [hd] at ho'; simp at ho'
    | dot => exact (List.cons.inj (List.cons.inj ha).2).2
    | attr => exact (List.cons.inj (List.cons.inj ha).2).2
  | attr hd =>
    generalize ha : _ :: _ :: b = a at h2
    cases h2 with
    | grp ho' hc' hu' => have := (List.cons.inj ha).1; subst this; rw [hd] at ho'; simp at ho'
    | dot => exact (List.cons.inj (List.cons.inj ha).2).2
    | attr => exact (List.cons.inj (List.cons.inj ha).2).2

theorem NameHead.det {a b c : List VTok} (h1 : NameHead a b) (h2 : NameHead a c) : b = c := by
  cases h1 with
  | lit h hn =>
    generalize ha : _ :: b = a at h2
    cases h2 with
    | lit => exact (List.cons.inj ha).2
    | ext ho => have := (List.cons.inj ha).1; subst this; exact absurd ho hn
  | ext ho hc hu =>
    generalize ha : _ :: (_ ++ _ :: b) = a at h2
    cases h2 with
    | lit h hn => have := (List.cons.inj ha).1; subst this; exact absurd ho hn
    | ext ho' hc' hu' => exact (hu.unique hu' hc hc' (List.cons.inj ha).2).2.2

theorem Parts.trans {a b c : List VTok} (h1 : Parts a b) (h2 : Parts b c) : Parts a c := by
  induction h1 with
  | refl => exact h2
  | step h _ ih => exact .step h (ih h2)

theorem Parts.one {a b : List VTok} (h : PartStep a b) : Parts a b := .step h .refl

/-- Two ends of a name: one is behind the other. -/
theorem Parts.linear {a b c : List VTok} (h1 : Parts a b) (h2 : Parts a c) : Parts b c ∨ Parts c b := by
  induction h1 with
  | refl => exact .inl h2
  | step h h' ih =>
    cases h2 with
    | refl => exact .inr (.step h h')
    | step k k' => cases h.det k; exact ih k'

theorem Parts.stuck {a b : List VTok} (h : Parts a b) (hs : Stuck a) : a = b := by
  cases h with
  | refl => rfl
  | step h _ => exact absurd h (hs _)

theorem PartStep.next {a b : List VTok} (h : PartStep a b) : ∃ y s, a = y :: s ∧ partStart y.ty = true := by
  cases h with
  | grp ho => exact ⟨_, _, rfl, by rcases ho with h | h <;> rw [h] <;> rfl⟩
  | dot h => exact ⟨_, _, rfl, by rw [h]; rfl⟩
  | attr h => exact ⟨_, _, rfl, by rw [h]; rfl⟩

theorem NameTo.trans {ts a b : List VTok} (h1 : NameTo ts a) (h2 : Parts a b) : NameTo ts b := by
  obtain ⟨m, hm, h⟩ := h1
  exact ⟨m, hm, h.trans h2⟩

/-- An end of a name, where a further part begins or where a given last end is. -/
theorem NameTo.last {ts a b : List VTok} (h1 : NameTo ts a) (h2 : NameTo ts b) (hs : Stuck b) :
    a = b ∨ ∃ y s, a = y :: s ∧ partStart y.ty = true := by
  obtain ⟨m, hm, h1⟩ := h1
  obtain ⟨m', hm', h2⟩ := h2
  cases hm.det hm'
  rcases h1.linear h2 with h | h
  · cases h with
    | refl => exact .inl rfl
    | step h _ => exact .inr h.next
  · exact .inl (h.stuck hs).symm

/-- The last part of a name is unique. -/
theorem NameTo.lastPart {ts a b r : List VTok} (h1 : NameTo ts a) (ha : PartStep a r) (h2 : NameTo ts b) (hb : PartStep b r)
    (hs : Stuck r) : a = b := by
  obtain ⟨m, hm, h1⟩ := h1
  obtain ⟨m', hm', h2⟩ := h2
  cases hm.det hm'
  have key : ∀ {a b : List VTok}, PartStep a r → PartStep b r → Parts a b → a = b := by
    intro a b ha hb h
    cases h with
    | refl => rfl
    | step h h' =>
      cases h.det ha
      rw [h'.stuck hs] at hs
      exact absurd hb (hs _)
  rcases h1.linear h2 with h | h
  · exact key ha hb h
  · exact (key hb ha h).symm

theorem NameTo.start {ts r : List VTok} (h : NameTo ts r) : ∃ y s, ts = y :: s ∧ nameStart y.ty = true := by
  obtain ⟨m, hm, -⟩ := h
  cases hm with
  | lit h => exact ⟨_, _, rfl, h⟩
  | ext h => exact ⟨_, _, rfl, by rw [h]; rfl⟩

theorem stuck_of_next {r : List VTok} (h : ∀ t, next r = some t → partStart t = false) : Stuck r := by
  intro s hs
  obtain ⟨y, s', rfl, hy⟩ := hs.next
  rw [h _ rfl] at hy; cases hy

/-! ## The parses of names and subtypes -/

/-- What the parses of the recursive rules consume. -/
structure Ends (E : Env) : Prop where
  name : ∀ ts x, x ∈ E.name ts → NameTo ts x.2
  elemC : ∀ ts x, x ∈ E.elemC ts → Parts ts x.2

theorem mem_nameLit {ts : List VTok} {x : NameLit × List VTok} (h : x ∈ nameLit ts) :
    ∃ y, ts = y :: x.2 ∧ nameStart y.ty = true ∧ y.ty ≠ .SHIFT_LEFT := by
  obtain ⟨p, hp, hx⟩ := mem_alts.1 h
  simp only [List.mem_cons, List.not_mem_nil, or_false] at hp
  rcases hp with rfl | rfl | rfl
  · obtain ⟨s, r, h1, h2⟩ := mem_bind.1 hx
    rw [mem_pure] at h2; subst h2
    rcases mem_or.1 h1 with h | h <;>
    · obtain ⟨y, h1, h2, h3⟩ := mem_tok.1 h
      exact ⟨y, h1, by rw [h2]; rfl, by rw [h2]; decide⟩
  all_goals
  · obtain ⟨s, r, h1, h2⟩ := mem_bind.1 hx
    rw [mem_pure] at h2; subst h2
    obtain ⟨y, h1, h2, h3⟩ := mem_tok.1 h1
    exact ⟨y, h1, by rw [h2]; rfl, by rw [h2]; decide⟩

section
variable {E : Env} (hE : Sound E)
include hE

omit hE in
theorem paren_form {γ : Type} {o c : VT} {p : P α} {f : α → P γ} (hp : Snd BalR p) {ts : List VTok} {x : γ × List VTok}
    (hx : x ∈ (tok o >>= fun _ => p >>= fun a => tok c >>= fun _ => f a) ts) :
    ∃ y u z r a, ts = y :: (u ++ z :: r) ∧ y.ty = o ∧ z.ty = c ∧ Bal u ∧ (a, z :: r) ∈ p (u ++ z :: r) ∧ x ∈ f a r := by
  obtain ⟨s1, r1, h1, hx1⟩ := mem_bind.1 hx
  obtain ⟨a, r2, h2, hx2⟩ := mem_bind.1 hx1
  obtain ⟨s3, r3, h3, hx3⟩ := mem_bind.1 hx2
  obtain ⟨y, e1, hy, -⟩ := mem_tok.1 h1
  obtain ⟨u, e2, hu⟩ := hp _ _ h2
  obtain ⟨z, e3, hz, -⟩ := mem_tok.1 h3
  simp only at e1 e2 e3
  subst e3; subst e2; subst e1
  exact ⟨y, u, z, r3, a, rfl, hy, hz, hu, h2, hx3⟩

omit hE in
theorem paren_step {γ : Type} {p : P α} {f : α → P γ} (hp : Snd BalR p) {ts : List VTok} {x : γ × List VTok}
    (hx : x ∈ (tok .LPAREN >>= fun _ => p >>= fun a => tok .RPAREN >>= fun _ => f a) ts) :
    ∃ r a, PartStep ts r ∧ x ∈ f a r := by
  obtain ⟨y, u, z, r, a, rfl, hy, hz, hu, -, hx⟩ := paren_form hp hx
  exact ⟨r, a, .grp (.inl hy) (by rw [hz]; rfl) hu, hx⟩

theorem nameAttributePart_parts {ts : List VTok} {x : (Bool × Str) × List VTok} (hx : x ∈ nameAttributePart E ts) :
    ∃ m, PartStep ts m ∧ Parts m x.2 := by
  obtain ⟨s1, r1, h1, hx⟩ := mem_bind.1 hx
  obtain ⟨s2, r2, h2, hx⟩ := mem_bind.1 hx
  obtain ⟨s3, r3, h3, hx⟩ := mem_bind.1 hx
  rw [mem_pure] at hx
  subst hx
  obtain ⟨y, e2, hy, -⟩ := mem_tok.1 h2
  obtain ⟨z, e3, hz, -⟩ := mem_attributeDesignator h3
  simp only at e2 e3 ⊢
  subst e3; subst e2
  have hat : PartStep (y :: z :: r3) r3 := .attr hy hz
  rcases mem_or.1 h1 with h | h
  · obtain ⟨b, r0, h1, h2⟩ := mem_bind.1 h
    rw [mem_pure] at h2; cases h2
    obtain ⟨s1, q1, g1, hx⟩ := mem_bind.1 h1
    obtain ⟨s2, q2, g2, hx⟩ := mem_bind.1 hx
    obtain ⟨s3, q3, g3, hx⟩ := mem_bind.1 hx
    obtain ⟨s4, q4, g4, hx⟩ := mem_bind.1 hx
    rw [mem_pure] at hx
    cases hx
    obtain ⟨u, e2, hu⟩ := Snd.opt balR_rel (sepBy_bal rfl rfl hE.name.bal) _ _ g2
    obtain ⟨v, e3, hv⟩ := Snd.opt balR_rel (Snd.bind balR_rel (tok_bal (t := .kw .RETURN) rfl rfl) fun _ => hE.name.bal) _ _ g3
    obtain ⟨y', e1, hy', -⟩ := mem_tok.1 g1
    obtain ⟨z', e4, hz', -⟩ := mem_tok.1 g4
    simp only at e1 e2 e3 e4 ⊢
    subst e4; subst e3; subst e2; subst e1
    refine ⟨_, ?_, .one hat⟩
    rw [← List.append_assoc]
    exact .grp (.inr hy') (by rw [hz']; rfl) (hu.append hv)
  · rw [mem_pure] at h; cases h
    exact ⟨_, hat, .refl⟩

theorem namePart_parts {n : Name} {ts : List VTok} {x : Name × List VTok} (hx : x ∈ namePart E n ts) :
    ∃ m, PartStep ts m ∧ Parts m x.2 := by
  obtain ⟨p, hp, hx⟩ := mem_alts.1 hx
  simp only [List.mem_cons, List.not_mem_nil, or_false] at hp
  rcases hp with rfl | rfl | rfl | rfl
  · obtain ⟨s1, r1, h1, hx⟩ := mem_bind.1 hx
    rw [mem_pure] at hx; subst hx
    obtain ⟨r, a, h1, h2⟩ := paren_step (explicitRange_s1 hE).bal h1
    rw [mem_pure] at h2; cases h2
    exact ⟨_, h1, .refl⟩
  · obtain ⟨s1, r1, h1, hx⟩ := mem_bind.1 hx
    rw [mem_pure] at hx; subst hx
    exact nameAttributePart_parts hE h1
  · obtain ⟨s1, r1, h1, hx⟩ := mem_bind.1 hx
    rw [mem_pure] at hx; subst hx
    obtain ⟨r, a, h1, h2⟩ := paren_step (sepBy_bal rfl rfl (associationElement_bal hE)) h1
    rw [mem_pure] at h2; cases h2
    exact ⟨_, h1, .refl⟩
  · obtain ⟨s1, r1, h1, hx⟩ := mem_bind.1 hx
    obtain ⟨s2, r2, h2, hx⟩ := mem_bind.1 hx
    rw [mem_pure] at hx; subst hx
    obtain ⟨y, e1, hy, -⟩ := mem_tok.1 h1
    have : ∃ z, r1 = z :: r2 := by
      rcases mem_or.1 h2 with h | h
      · obtain ⟨l, r, h1, h2⟩ := mem_bind.1 h
        rw [mem_pure] at h2; cases h2
        obtain ⟨z, hz, -⟩ := mem_nameLit h1
        exact ⟨z, hz⟩
      · obtain ⟨l, r, h1, h2⟩ := mem_bind.1 h
        rw [mem_pure] at h2; cases h2
        obtain ⟨z, hz, -⟩ := mem_tok.1 h1
        exact ⟨z, hz⟩
    obtain ⟨z, rfl⟩ := this
    simp only at e1 ⊢
    subst e1
    exact ⟨r2, .dot hy, .refl⟩

theorem loopN_namePart_parts : ∀ (m : Nat) (n : Name) {ts : List VTok} {x : Name × List VTok},
    x ∈ loopN (namePart E) m n ts → Parts ts x.2
  | 0, n, ts, x, hx => by rw [loopN, mem_pure] at hx; subst hx; exact .refl
  | m + 1, n, ts, x, hx => by
    rcases mem_or.1 hx with h | h
    · obtain ⟨b, r, h1, h2⟩ := mem_bind.1 h
      obtain ⟨k, hk, hk'⟩ := namePart_parts hE h1
      exact .step hk (hk'.trans (loopN_namePart_parts m b h2))
    · rw [mem_pure] at h; subst h; exact .refl

theorem name_to {ts : List VTok} {x : Name × List VTok} (hx : x ∈ Vhdl.name E ts) : NameTo ts x.2 := by
  obtain ⟨n, r, h1, h2⟩ := mem_bind.1 hx
  refine ⟨r, ?_, loopN_namePart_parts hE _ _ h2⟩
  rcases mem_or.1 h1 with h | h
  · obtain ⟨l, r, h1, h2⟩ := mem_bind.1 h
    rw [mem_pure] at h2; cases h2
    obtain ⟨y, e, hy, hy'⟩ := mem_nameLit h1
    simp only at e
    rw [e]
    exact .lit hy hy'
  · obtain ⟨o, u, c, e, ho, hc, hu⟩ := externalName_form hE h
    simp only at e
    rw [e]
    exact .ext ho (by rw [hc]; rfl) hu

theorem arrayConstraint_parts (hN : Ends E) {ts : List VTok} {x : ArrC × List VTok} (hx : x ∈ arrayConstraint E ts) : Parts ts x.2 := by
  have key : ∀ {γ : Type} (g : Option ElemC → γ) (r : List VTok) (x : γ × List VTok),
      x ∈ (opt E.elemC >>= fun e => (pure (g e) : P γ)) r → Parts r x.2 := by
    intro γ g r x hx
    obtain ⟨a, s, h1, h2⟩ := mem_bind.1 hx
    rw [mem_pure] at h2; subst h2
    rcases mem_or.1 h1 with h | h
    · obtain ⟨b, s, h1, h2⟩ := mem_bind.1 h
      rw [mem_pure] at h2; cases h2
      exact hN.elemC _ _ h1
    · rw [mem_pure] at h; cases h; exact .refl
  rcases mem_or.1 hx with h | h
  · obtain ⟨r, a, h1, h2⟩ := paren_step (sepBy_bal rfl rfl (discreteRange_s1 hE).bal) h
    exact .step h1 (key (fun e => ArrC.index a (e.getD .none)) _ _ h2)
  · obtain ⟨r, a, h1, h2⟩ := paren_step (tok_bal rfl rfl) h
    exact .step h1 (key (fun e => ArrC.opn (e.getD .none)) _ _ h2)

theorem elementConstraint_parts (hN : Ends E) {ts : List VTok} {x : ElemC × List VTok} (hx : x ∈ elementConstraint E ts) : Parts ts x.2 := by
  rcases mem_or.1 hx with h | h
  · obtain ⟨b, s, h1, h2⟩ := mem_bind.1 h
    rw [mem_pure] at h2; subst h2
    exact arrayConstraint_parts hE hN h1
  · obtain ⟨b, s, h1, h2⟩ := mem_bind.1 h
    rw [mem_pure] at h2; subst h2
    obtain ⟨r, a, h1, h2⟩ := paren_step (sepBy_bal rfl rfl (Snd.bind balR_rel identifier_flat.bal fun _ => hE.elemC.bal)) h1
    rw [mem_pure] at h2; cases h2
    exact .one h1

theorem Ends.next (hN : Ends E) : Ends E.next where
  name _ _ hx := name_to hE hx
  elemC _ _ hx := elementConstraint_parts hE hN hx

/-- Where a subtype can end: behind a name and more parts, or behind `range`; in front of the name there can be another name or
something in parentheses. -/
theorem subInd_form (hN : Ends E) {ts : List VTok} {x : SubInd × List VTok} (hx : x ∈ subtypeIndication E ts) :
    ∃ m r, (m = ts ∨ NameTo ts m ∨ ∃ o u c, ts = o :: (u ++ c :: m) ∧ o.ty = .LPAREN ∧ isClose c.ty = true ∧ Bal u) ∧ NameTo m r ∧
      (Parts r x.2 ∨ Vhdl.next r = some (.kw .RANGE)) := by
  obtain ⟨s1, m, h1, hx⟩ := mem_bind.1 hx
  obtain ⟨s2, r, h2, hx⟩ := mem_bind.1 hx
  obtain ⟨s3, r3, h3, hx⟩ := mem_bind.1 hx
  rw [mem_pure] at hx
  subst hx
  refine ⟨m, r, ?_, hN.name _ _ h2, ?_⟩
  · rcases mem_or.1 h1 with h | h
    · obtain ⟨b, s, h1, h2⟩ := mem_bind.1 h
      rw [mem_pure] at h2; cases h2
      rcases mem_or.1 h1 with h | h
      · obtain ⟨b, s, h1, h2⟩ := mem_bind.1 h
        rw [mem_pure] at h2; cases h2
        exact .inr (.inl (hN.name _ _ h1))
      · obtain ⟨b, s, h1, h2⟩ := mem_bind.1 h
        rw [mem_pure] at h2; cases h2
        obtain ⟨y, u, z, r, a, e, hy, hz, hu, -, h2⟩ := paren_form (Snd.or hE.resol.bal (Snd.bind balR_rel (sepBy_bal rfl rfl
          (Snd.bind balR_rel identifier_flat.bal fun _ => hE.resol.bal)) fun _ => Snd.ret balR_rel _)) h1
        rw [mem_pure] at h2; cases h2
        exact .inr (.inr ⟨y, u, z, e, hy, by rw [hz]; rfl, hu⟩)
    · rw [mem_pure] at h; cases h; exact .inl rfl
  · rcases mem_or.1 h3 with h | h
    · obtain ⟨b, s, h1, h2⟩ := mem_bind.1 h
      rw [mem_pure] at h2; cases h2
      rcases mem_or.1 h1 with h | h
      · obtain ⟨b, s, h1, -⟩ := mem_bind.1 h
        obtain ⟨y, e, hy, -⟩ := mem_tok.1 h1
        right; rw [e]; simp [hy]
      · obtain ⟨b, s, h1, h2⟩ := mem_bind.1 h
        rw [mem_pure] at h2; cases h2
        exact .inl (elementConstraint_parts hE hN h1)
    · rw [mem_pure] at h; cases h; exact .inl .refl

end

theorem ends_env : ∀ n, Ends (env n)
  | 0 => ⟨(fun _ _ h => nomatch h), (fun _ _ h => nomatch h)⟩
  | n + 1 => (ends_env n).next (sound_env n)

theorem subInd_env {n : Nat} {ts : List VTok} {x : SubInd × List VTok} (hx : x ∈ (env n).subInd ts) :
    ∃ m r, (m = ts ∨ NameTo ts m ∨ ∃ o u c, ts = o :: (u ++ c :: m) ∧ o.ty = .LPAREN ∧ isClose c.ty = true ∧ Bal u) ∧ NameTo m r ∧
      (Parts r x.2 ∨ next r = some (.kw .RANGE)) := by
  cases n with
  | zero => cases hx
  | succ n => exact subInd_form (sound_env n) (ends_env n) hx

theorem primary_start {E : Env} (hN : Ends E) {ts : List VTok} {x : Primary × List VTok} (hx : x ∈ primary E ts) :
    ∃ y s, ts = y :: s ∧ primStart y.ty = true := by
  have tk : ∀ {γ : Type} (t : VT) (f : Str → P γ) (x : γ × List VTok), primStart t = true → x ∈ (tok t >>= f) ts →
      ∃ y s, ts = y :: s ∧ primStart y.ty = true := by
    intro γ t f x ht hx
    obtain ⟨b, s, h1, -⟩ := mem_bind.1 hx
    obtain ⟨y, e, hy, -⟩ := mem_tok.1 h1
    exact ⟨y, _, e, by rw [hy]; exact ht⟩
  have nm : ∀ {γ : Type} (f : Name → P γ) (x : γ × List VTok), x ∈ (E.name >>= f) ts → ∃ y s, ts = y :: s ∧ primStart y.ty = true := by
    intro γ f x hx
    obtain ⟨b, s, h1, -⟩ := mem_bind.1 hx
    obtain ⟨y, s, e, hy⟩ := (hN.name _ _ h1).start
    exact ⟨y, s, e, nameStart_primStart hy⟩
  obtain ⟨p, hp, hx⟩ := mem_alts.1 hx
  simp only [List.mem_cons, List.not_mem_nil, or_false] at hp
  rcases hp with rfl | rfl | rfl | rfl | rfl | rfl
  · obtain ⟨p, hp, hx⟩ := mem_alts.1 hx
    simp only [List.mem_cons, List.not_mem_nil, or_false] at hp
    rcases hp with rfl | rfl | rfl
    · exact tk _ _ _ rfl hx
    · exact tk _ _ _ rfl hx
    · exact nm _ _ hx
  · exact tk _ _ _ rfl hx
  · exact tk _ _ _ rfl hx
  · exact tk _ _ _ rfl hx
  · obtain ⟨b, s, h1, -⟩ := mem_bind.1 hx
    exact tk _ _ _ rfl h1
  · obtain ⟨b, s, h1, -⟩ := mem_bind.1 hx
    exact nm _ _ h1

theorem toks_start {l : List (VT × α)} {F : VT → Bool} (hF : ∀ x ∈ l, F x.1 = true) {ts : List VTok} {x : α × List VTok}
    (hx : x ∈ toks l ts) : ∃ y s, ts = y :: s ∧ F y.ty = true := by
  obtain ⟨y, e, hy⟩ := mem_toks.1 hx
  exact ⟨y, _, e, hF _ hy⟩

theorem simpleHead_start {E : Env} (hN : Ends E) {ts : List VTok} {x : Simple × List VTok} (hx : x ∈ simpleHead E ts) :
    ∃ y s, ts = y :: s ∧ expStart y.ty = true := by
  obtain ⟨p, hp, hx⟩ := mem_alts.1 hx
  simp only [List.mem_cons, List.not_mem_nil, or_false] at hp
  rcases hp with rfl | rfl | rfl
  · obtain ⟨b, s, h1, -⟩ := mem_bind.1 hx
    obtain ⟨y, s, e, hy⟩ := primary_start hN h1
    exact ⟨y, s, e, primStart_expStart hy⟩
  · obtain ⟨b, s, h1, -⟩ := mem_bind.1 hx
    rcases mem_or.1 h1 with h | h
    · exact toks_start (by simp [expStart]) h
    · obtain ⟨b, s, h1, -⟩ := mem_bind.1 h
      exact toks_start (by decide) h1
  · obtain ⟨b, s, h1, -⟩ := mem_bind.1 hx
    exact toks_start (by decide) h1

theorem simple_start {n p : Nat} {ts : List VTok} {x : Simple × List VTok} (hx : x ∈ (env n).simple p ts) :
    ∃ y s, ts = y :: s ∧ expStart y.ty = true := by
  cases n with
  | zero => cases hx
  | succ n =>
    obtain ⟨b, s, h1, -⟩ := mem_bind.1 hx
    exact simpleHead_start (ends_env n) h1

theorem expression_start {n p : Nat} {ts : List VTok} {x : Expression × List VTok} (hx : x ∈ (env n).expression p ts) :
    ∃ y s, ts = y :: s ∧ expStart y.ty = true := by
  cases n with
  | zero => cases hx
  | succ n =>
    obtain ⟨b, s, h1, -⟩ := mem_bind.1 hx
    rcases mem_or.1 h1 with h | h
    · obtain ⟨b, s, h1, -⟩ := mem_bind.1 h
      obtain ⟨y, e, hy, -⟩ := mem_tok.1 h1
      exact ⟨y, _, e, by rw [hy]; rfl⟩
    · obtain ⟨b, s, h1, -⟩ := mem_bind.1 h
      exact simple_start h1

/-! ## The first parse -/

/-- The first parse that counts is `t` with rest `r`: the ones in front of it have rests which are dead. -/
def First (D : List VTok → Prop) (p : P α) (ts : List VTok) (t : α) (r : List VTok) : Prop :=
  ∃ pre post, p ts = pre ++ (t, r) :: post ∧ ∀ x ∈ pre, D x.2

/-- Nothing is dead. -/
def None' : List VTok → Prop := fun _ => False

section
variable {D D' : List VTok → Prop} {p q : P α} {ts r : List VTok} {a : α}

theorem First.ret (a : α) (ts : List VTok) : First D (pure a) ts a ts := ⟨[], [], rfl, by simp⟩

theorem First.mono (h : First D' p ts a r) (hD : ∀ s, D' s → D s) : First D p ts a r := by
  obtain ⟨pre, post, h1, h2⟩ := h
  exact ⟨pre, post, h1, fun x hx => hD _ (h2 x hx)⟩

theorem First.weak (h : First None' p ts a r) : First D p ts a r := h.mono fun _ h => h.elim

theorem First.of_eq (h : p ts = [(a, r)]) : First D p ts a r := ⟨[], [], h, by simp⟩

theorem First.bind {f : α → P β} {r1 : List VTok} {b : β} (h1 : First D' p ts a r1) (h2 : First D (f a) r1 b r)
    (hD : ∀ c s, D' s → ∀ x ∈ f c s, D x.2) : First D (p >>= f) ts b r := by
  obtain ⟨pre, post, e1, h1⟩ := h1
  obtain ⟨pre', post', e2, h2⟩ := h2
  refine ⟨(pre.flatMap fun x => f x.1 x.2) ++ pre', post' ++ (post.flatMap fun x => f x.1 x.2), ?_, ?_⟩
  · rw [bind_apply, e1, List.flatMap_append, List.flatMap_cons, e2]
    simp
  · intro x hx
    rcases List.mem_append.1 hx with hx | hx
    · obtain ⟨y, hy, hx⟩ := List.mem_flatMap.1 hx
      exact hD _ _ (h1 y hy) x hx
    · exact h2 x hx

theorem First.bindH {f : α → P β} {r1 : List VTok} {b : β} (h1 : First None' p ts a r1) (h2 : First D (f a) r1 b r) :
    First D (p >>= f) ts b r := h1.bind h2 fun _ _ h => h.elim

/-- A result changed. -/
theorem First.map {f : α → β} (h1 : First D p ts a r) : First D (p >>= fun x => pure (f x)) ts (f a) r :=
  h1.bind (First.ret _ _) fun c s hs x hx => by rw [mem_pure] at hx; subst hx; exact hs

theorem First.orL (h : First D p ts a r) : First D (P.or p q) ts a r := by
  obtain ⟨pre, post, h1, h2⟩ := h
  exact ⟨pre, post ++ q ts, by rw [or_apply, h1]; simp, h2⟩

theorem First.orR (h0 : ∀ x ∈ p ts, D x.2) (h : First D q ts a r) : First D (P.or p q) ts a r := by
  obtain ⟨pre, post, h1, h2⟩ := h
  refine ⟨p ts ++ pre, post, by rw [or_apply, h1]; simp, ?_⟩
  intro x hx
  rcases List.mem_append.1 hx with hx | hx
  · exact h0 x hx
  · exact h2 x hx

theorem First.orN (h0 : p ts = []) (h : First D q ts a r) : First D (P.or p q) ts a r :=
  h.orR (by rw [h0]; simp)

theorem First.tok {t : VT} {y : VTok} (h : y.ty = t) (r : List VTok) : First D (tok t) (y :: r) y.text r :=
  First.of_eq (tok_pos h r)

theorem First.some (h : First D p ts a r) : First D (opt p) ts (some a) r := (First.map (f := Option.some) h).orL

theorem First.none (h0 : ∀ x ∈ p ts, D x.2) : First D (opt p) ts none ts :=
  (First.ret _ _).orR fun x hx => by
    obtain ⟨b, s, h1, h2⟩ := mem_bind.1 hx
    rw [mem_pure] at h2; subst h2
    exact h0 _ h1

theorem First.noneE (h0 : p ts = []) : First D (opt p) ts Option.none ts := First.none (by rw [h0]; simp)

/-- With nothing found there is only `none`. -/
theorem opt_none (h0 : p ts = []) : opt p ts = [(none, ts)] := by
  show (p >>= fun a => pure (Option.some a)) ts ++ _ = _
  rw [bind_apply, h0]; rfl

/-- A result only if the dead rests do not go on. -/
theorem First.head {f : α → P β} {r1 : List VTok} {b : β} (h1 : First D' p ts a r1) (h2 : First D (f a) r1 b r)
    (hD : ∀ c s, D' s → f c s = []) : First D (p >>= f) ts b r :=
  h1.bind h2 fun c s hs x hx => by rw [hD c s hs] at hx; cases hx

end

theorem bind_nil {p : P α} {f : α → P β} {ts : List VTok} (h : p ts = []) : (p >>= f) ts = [] := by
  rw [bind_apply, h]; rfl

theorem loopN_succ (f : α → P α) (n : Nat) (a : α) : loopN f (n + 1) a = P.or (f a >>= loopN f n) (pure a) := rfl

/-- The loop stops where no step is possible. -/
theorem loopN_stop {f : α → P α} {a : α} {ts : List VTok} (h : f a ts = []) : ∀ n, loopN f n a ts = [(a, ts)]
  | 0 => rfl
  | n + 1 => by rw [loopN_succ, or_apply, bind_nil h]; rfl

theorem First.step {D D' : List VTok → Prop} {f : α → P α} {a b c : α} {ts r1 r : List VTok} {n : Nat} (h1 : First D' (f a) ts b r1)
    (h2 : First D (loopN f n b) r1 c r) (hD : ∀ x s, D' s → ∀ y ∈ loopN f n x s, D y.2) : First D (loopN f (n + 1) a) ts c r :=
  (h1.bind h2 hD).orL

end Verif.Vhdl
