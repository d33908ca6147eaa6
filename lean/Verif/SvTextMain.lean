import Verif.SvTextLemmas
/-!
# The parse of a SystemVerilog expression: induction over the length of the text
-/
namespace Verif.Sv
open P Verif.Spec.SvLrm Verif.Spec.Sv

/-! ## Texts which the visitors convert -/

end Verif.Sv

namespace Verif.Spec.SvLrm
open Verif.Sv

mutual
/-- What the visitors convert: all tokens convert; no `<->`, no concatenation of one part, no last argument that is omitted, no
empty parentheses but those of a system function. -/
def SExp.Ok : SExp → Prop
  | .prim p => p.Ok
  | .un _ p => p.Ok
  | .bin a o b => a.Ok ∧ b.Ok ∧ o ≠ .equiv
  | .cond c t e => c.Ok ∧ t.Ok ∧ e.Ok
def SPrim.Ok : SPrim → Prop
  | .lit l => okLit l
  | .name i l => okIdent i ∧ ∀ j ∈ l, okIdent j
  | .paren e => e.Ok
  | .cast p e => p.Ok ∧ e.Ok
  | .bit p e => p.Ok ∧ e.Ok
  | .part p _ a b => p.Ok ∧ a.Ok ∧ b.Ok
  | .dot p i => p.Ok ∧ okIdent i
  | .concat e l => e.Ok ∧ expsOk l ∧ l ≠ []
  | .repl n e l => n.Ok ∧ e.Ok ∧ expsOk l
  | .pat e l => e.Ok ∧ expsOk l
  | .patKeys k l => k.Ok ∧ kvsOk l
  | .sys f => isKw f = true
  | .sysCall f l => isKw f = true ∧ argsOk l
  | .call p l => p.Ok ∧ l ≠ [] ∧ argsOk l
def expsOk : List SExp → Prop
  | [] => True
  | e :: l => e.Ok ∧ expsOk l
def SKV.Ok : SKV → Prop
  | .field i e => okIdent i ∧ e.Ok
  | .dflt e => e.Ok
def kvsOk : List SKV → Prop
  | [] => True
  | k :: l => k.Ok ∧ kvsOk l
def SArg.Ok : SArg → Prop
  | .omit => True
  | .pos e => e.Ok
  | .named i e => okIdent i ∧ e.Ok
  | .namedEmpty i => okIdent i
def argsOk : List SArg → Prop
  | [] => True
  | a :: l => a.Ok ∧ argsOk l ∧ (l = [] → a ≠ .omit)
end

end Verif.Spec.SvLrm

namespace Verif.Sv
open P Verif.Spec.SvLrm Verif.Spec.Sv

section
variable {V : Type} (A : Alg V)

/-- A tree means the same as the text. -/
structure ME (t : Exp) (e : SExp) : Prop where
  ev : evExp A t = e.eval A
  ok : e.Ok → okExp t
structure MPr (t : Prim) (p : SPrim) : Prop where
  ev : evPrim A t = p.eval A
  ok : p.Ok → okPrim t
  sys : ∀ f, t = .tfCall0 f → p = .sys f
structure MD (t : DType) (p : SPrim) : Prop where
  ev : evDType A t = p.eval A
  ok : p.Ok → okDType t
end

/-! ## Loops -/

/-- What the loop of a rule gives behind the tree `t` of the tokens `w`, the rule gives from the beginning of `w`. -/
def Lift {α : Type} (step : α → P α) (rule : P α) (w R : List STok) (t : α) : Prop :=
  ∀ x r, (∀ m, R.length ≤ m → First None' (loopN step m t) R x r) → First None' rule (w ++ R) x r

section
variable {α : Type} {step : α → P α} {rule : P α} {w u v R : List STok} {t t' : α}

theorem Lift.stop (h : Lift step rule w R t) (hs : step t R = []) : First None' rule (w ++ R) t R :=
  h t R fun m _ => First.of_eq (loopN_stop hs m)

theorem Lift.extend (h : Lift step rule u (v ++ R) t) (hv : v ≠ []) (hs : First None' (step t) (v ++ R) t' R) : Lift step rule (u ++ v) R t' := by
  intro x r hr
  rw [List.append_assoc]
  refine h x r fun m hm => ?_
  have hl : 0 < v.length := List.length_pos_of_ne_nil hv
  rw [List.length_append] at hm
  obtain ⟨m, rfl⟩ : ∃ n, m = n + 1 := ⟨m - 1, by omega⟩
  exact (First.bindH hs (hr m (by omega))).orL

theorem Lift.head {p : P α} (h : First None' p (w ++ R) t R) : Lift step (p >>= loop step) w R t :=
  fun _ _ hr => First.bindH h (hr _ (Nat.le_refl _))
end

section
variable {α : Type} {p : P α} {a : α} {l : List α} {ts r1 r : List STok} {D : List STok → Prop} {n : Nat}

theorem manyN_stop (h : p ts = []) : ∀ n, manyN p n ts = [([], ts)]
  | 0 => rfl
  | n + 1 => by
    show (p >>= fun a => _) ts ++ _ = _
    rw [bind_nil h]; rfl

theorem First.many (h : First D (manyN p ts.length) ts l r) : First D (many p) ts l r := h

theorem First.manyCons (h1 : First None' p ts a r1) (h2 : First D (manyN p n) r1 l r) : First D (manyN p (n + 1)) ts (a :: l) r :=
  (First.bindH h1 h2.map).orL
end

/-! ## Ends of texts -/

/-- Neither a primary nor an expression goes on. -/
def Sep (R : List STok) : Prop := ∃ y s, R = y :: s ∧ pCont y.ty = false ∧ opPrec y.ty = 0

theorem Sep.pends {R : List STok} (h : Sep R) : PEnds R := by
  obtain ⟨y, s, rfl, h1, -⟩ := h
  intro _ _ e; cases e; exact h1
theorem Sep.ends {R : List STok} (h : Sep R) (q : Nat) : Ends q R := by
  obtain ⟨y, s, rfl, -, h1⟩ := h
  intro _ _ e; cases e; exact .inl h1
theorem Sep.of {y : STok} {t : ST} (hy : y.ty = t) (s : List STok) (h1 : pCont t = false) (h2 : opPrec t = 0) : Sep (y :: s) :=
  ⟨y, s, rfl, by rw [hy]; exact h1, by rw [hy]; exact h2⟩

theorem PlusColon.pends {y : STok} {s : List STok} (h : PlusColon y s) : PEnds (y :: s) := by
  intro _ _ e; cases e
  obtain ⟨h | h, -⟩ := h <;> · rw [h]; rfl
theorem PlusColon.ends {y : STok} {s : List STok} (h : PlusColon y s) (q : Nat) : Ends q (y :: s) := by
  intro _ _ e; cases e; exact .inr (.inr h)

/-- Behind a primary. -/
def PHead (p : SPrim) (R : List STok) : Prop := ∀ y s, R = y :: s →
  y.ty ≠ .ANY_BASED_NUMBER ∧ y.ty ≠ .HASH ∧ y.ty ≠ .DOUBLE_COLON ∧ y.ty ≠ .KW_WITH ∧ (y.ty = .LPAREN → callable p = true)

theorem PHead.of {p : SPrim} {y : STok} {t : ST} (hy : y.ty = t) (s : List STok)
    (h : t ≠ .ANY_BASED_NUMBER ∧ t ≠ .HASH ∧ t ≠ .DOUBLE_COLON ∧ t ≠ .KW_WITH) (h2 : t = .LPAREN → callable p = true) : PHead p (y :: s) := by
  intro _ _ e; cases e
  rw [hy]
  exact ⟨h.1, h.2.1, h.2.2.1, h.2.2.2, h2⟩

theorem PEnds.phead {R : List STok} (h : PEnds R) (p : SPrim) : PHead p R := by
  intro y s e
  have := h y s e
  refine ⟨?_, ?_, ?_, ?_, ?_⟩ <;> · intro h; rw [h] at this; cases this

/-- No token of this type follows. -/
theorem tok_ne {t : ST} {R : List STok} (h : ∀ y s, R = y :: s → y.ty ≠ t) : tok t R = [] := by
  cases R with
  | nil => rfl
  | cons y s => exact tok_neg (h y s rfl) s

/-! ## Names and literals -/

theorem alts_cons {α : Type} (p q : P α) (l : List (P α)) : alts (p :: q :: l) = P.or p (alts (q :: l)) := rfl

theorem identifier_first {i : Ident} {x : STok} (h : Ident.Tok i x) (R : List STok) : First None' identifier (x :: R) i R := by
  obtain ⟨h1, h2⟩ := h
  obtain ⟨e, t⟩ := i
  cases e with
  | true =>
    simp only [if_true] at h1 h2
    subst h1
    exact First.orN (bind_nil (tok_neg (by rw [h2]; decide) R)) (First.orN (bind_nil (tok_neg (by rw [h2]; decide) R))
      (First.orL (First.map (f := fun t => (⟨true, t⟩ : Ident)) (First.tok h2 R))))
  | false =>
    simp only [Bool.false_eq_true, if_false] at h1 h2
    subst h1
    have hk : ∀ t, x.ty = t → t ∈ [ST.KW_SAMPLE, .KW_TYPE_OPTION, .KW_OPTION, .KW_STD] → First None' identifier (x :: R) ⟨false, x.text⟩ R := by
      intro t ht hm
      have : texts [.KW_SAMPLE, .KW_RANDOMIZE, .KW_TYPE_OPTION, .KW_OPTION, .KW_STD] (x :: R) = [(x.text, R)] := by
        simp only [List.mem_cons, List.not_mem_nil, or_false] at hm
        rcases hm with rfl | rfl | rfl | rfl <;> simp [texts, alts_apply, tok_cons, ht]
      refine First.orN (bind_nil (tok_neg ?_ R)) (First.orN (bind_nil (tok_neg ?_ R)) (First.orN (bind_nil (tok_neg ?_ R))
        (First.map (f := fun t => (⟨false, t⟩ : Ident)) (First.of_eq this))))
      all_goals (rw [ht]; rintro rfl; revert hm; decide)
    simp only [List.mem_cons, List.not_mem_nil, or_false] at h2
    rcases h2 with h2 | h2 | h2 | h2 | h2 | h2
    · exact First.orL (First.map (f := fun t => (⟨false, t⟩ : Ident)) (First.tok h2 R))
    · exact First.orN (bind_nil (tok_neg (by rw [h2]; decide) R)) (First.orL (First.map (f := fun t => (⟨false, t⟩ : Ident)) (First.tok h2 R)))
    all_goals exact hk _ h2 (by decide)

theorem ident_ne {i : Ident} {x : STok} (h : Ident.Tok i x) {t : ST} (ht : isIdTok t = false) : x.ty ≠ t := by
  intro e; have := ident_id h; rw [e, ht] at this; cases this

/-- Not the head of a list of parameters. -/
theorem pvaOpt_first {E : Env} {R : List STok} (h : ∀ y s, R = y :: s → y.ty ≠ .HASH) : First None' (pvaOpt E) R .none R :=
  First.map (f := fun p : Option PVA => p.getD .none) (First.noneE (bind_nil (tok_ne h)))

theorem pathItem_first {E : Env} {i : Ident} {x : STok} (h : Ident.Tok i x) {R : List STok} (hR : ∀ y s, R = y :: s → y.ty ≠ .HASH) :
    First None' (pathItem E) (x :: R) (.mk i .none) R :=
  First.bindH (identifier_first h R) (First.map (f := fun p => PathItem.mk i p) (pvaOpt_first hR))

theorem pathHead_first {E : Env} {i : Ident} {x : STok} (h : Ident.Tok i x) {R : List STok} (hR : ∀ y s, R = y :: s → y.ty ≠ .HASH) :
    First None' (pathHead E) (x :: R) (.items, [.mk i .none]) R := by
  refine First.orN (bind_nil (tok_neg (ident_ne h rfl) R)) (First.orN (bind_nil ?_) (First.orN (bind_nil (tok_neg (ident_ne h rfl) R))
    (First.map (f := fun i => (PathHead.items, [i])) (pathItem_first h hR))))
  show (tok .KW_THIS >>= fun _ => _) _ ++ (tok .KW_SUPER >>= fun _ => _) _ = []
  rw [bind_nil (tok_neg (ident_ne h rfl) R), bind_nil (tok_neg (ident_ne h rfl) R)]; rfl

/-- Neither `#` nor `::`. -/
def NameEnd (R : List STok) : Prop := ∀ y s, R = y :: s → y.ty ≠ .HASH ∧ y.ty ≠ .DOUBLE_COLON

theorem ids_end {l : List Ident} {v : List STok} (h : idsToks l v) {R : List STok} (hR : NameEnd R) : ∀ y s, v ++ R = y :: s → y.ty ≠ .HASH := by
  cases l with
  | nil =>
    rw [idsToks, Spec.SvLrm.Empty] at h; subst h
    intro y s e; exact (hR y s e).1
  | cons i l =>
    obtain ⟨_, v, rfl, ⟨x, rfl, hx⟩, -⟩ := h
    intro y s e
    have := (List.cons.inj e).1
    subst this
    rw [hx]; decide

theorem ids_first {E : Env} : ∀ (l : List Ident) (v : List STok), idsToks l v → ∀ R, NameEnd R → ∀ m, v.length ≤ m →
    First None' (manyN (do let _ ← tok .DOUBLE_COLON; pathItem E) m) (v ++ R) (l.map fun i => .mk i .none) R
  | [], v, h, R, hR, m, hm => by
    rw [idsToks, Spec.SvLrm.Empty] at h; subst h
    exact First.of_eq (manyN_stop (bind_nil (tok_ne fun y s e => (hR y s e).2)) m)
  | i :: l, _, h, R, hR, m, hm => by
    obtain ⟨_, _, rfl, ⟨x, rfl, hx⟩, _, v, rfl, ⟨y, rfl, hy⟩, h3⟩ := h
    simp only [List.length_append, List.length_cons, List.length_nil] at hm
    obtain ⟨m, rfl⟩ : ∃ n, m = n + 1 := ⟨m - 1, by omega⟩
    exact First.manyCons (First.bindH (First.tok hx _) (pathItem_first hy (ids_end h3 hR))) (ids_first l v h3 R hR m (by omega))

/-- The tree of a name. -/
def namePath (i : Ident) (l : List Ident) : Path := .mk false .items (.mk i .none :: l.map fun i => .mk i .none)

theorem path_first {E : Env} {i : Ident} {l : List Ident} {w R : List STok} (h : Cat (OneP (Ident.Tok i)) (idsToks l) w) (hR : NameEnd R) :
    First None' (path E) (w ++ R) (namePath i l) R := by
  obtain ⟨_, v, rfl, ⟨x, rfl, hx⟩, h2⟩ := h
  refine First.bindH (First.noneE (bind_nil (tok_neg (ident_ne hx rfl) _))) (First.bindH (pathHead_first hx (ids_end h2 hR)) ?_)
  exact First.map (f := fun m => Path.mk false .items ([.mk i .none] ++ m)) (First.many (ids_first l v h2 R hR _ (by simp)))

theorem namePath_ev {V : Type} (A : Alg V) (i : Ident) (l : List Ident) : evPath A (namePath i l) = evIds A (A.ident i) l := by
  have : ∀ (l : List Ident) (v : V), evPathItems A (some v) (l.map fun i => .mk i .none) = some (evIds A v l) := by
    intro l
    induction l with
    | nil => intro v; rfl
    | cons j l ih => intro v; rw [List.map_cons, evPathItems, evPathItem, evPVA, ih]; rfl
  rw [namePath, evPath, evPathItems, evPathItem, evPVA]
  show argVal A (evPathItems A (some (A.ident i)) _) = _
  rw [this]; rfl

theorem namePath_ok {i : Ident} {l : List Ident} (h : okIdent i) (hl : ∀ j ∈ l, okIdent j) : okPath (namePath i l) := by
  have : ∀ l : List Ident, (∀ j ∈ l, okIdent j) → okPathItems (l.map fun i => .mk i .none) := by
    intro l
    induction l with
    | nil => intro _; trivial
    | cons j l ih =>
      intro h
      exact ⟨⟨h j (by simp), trivial⟩, ih fun k hk => h k (by simp [hk])⟩
  exact ⟨⟨⟨h, trivial⟩, this l hl⟩, fun _ => by simp⟩

theorem append_notWire {sel i : Expr} (h : isOpenWire i = false) : isOpenWire (appendExpr sel .DOUBLE_COLON i) = false := by
  unfold appendExpr
  split
  · exact h
  · rfl

theorem namePath_wire {i : Ident} {l : List Ident} {e : Expr} (h : visitPath (namePath i l) = .ok e) : isOpenWire e = false := by
  have hi : ∀ i e, visitIdent i = .ok e → isOpenWire e = false := by
    intro i e h
    unfold visitIdent at h
    cases h1 : identStr i with
    | error x => rw [h1] at h; cases h
    | ok s => rw [h1] at h; cases h; rfl
  have : ∀ (l : List Ident) (s e : Expr), (isOpenWire s = false) → visitPathItems s (l.map fun i => .mk i .none) = .ok e → isOpenWire e = false := by
    intro l
    induction l with
    | nil => intro s e hs h; rw [List.map_nil, visitPathItems] at h; cases h; exact hs
    | cons j l ih =>
      intro s e hs h
      rw [List.map_cons, visitPathItems, visitPathItem] at h
      cases h1 : visitIdent j with
      | error x => rw [h1] at h; cases h
      | ok x =>
        rw [h1] at h
        exact ih _ e (append_notWire (hi _ _ h1)) h
  rw [namePath, visitPath] at h
  cases h1 : visitPathItems (visitPathHead false .items) ((PathItem.mk i .none) :: l.map fun i => .mk i .none) with
  | error x => rw [h1] at h; cases h
  | ok r =>
    have := this (i :: l) _ r rfl h1
    rw [h1] at h
    cases r <;> first | (cases h; exact this) | cases h

/-- Not a size. -/
theorem lit_first {l : Lit} {w R : List STok} (h : Lit.Toks l w) (hR : ∀ y s, R = y :: s → y.ty ≠ .ANY_BASED_NUMBER) :
    First None' primaryLiteral (w ++ R) l R := by
  have hn : tok .ANY_BASED_NUMBER R = [] := tok_ne hR
  cases l with
  | time t => obtain ⟨x, rfl, hx, rfl⟩ := h; exact First.of_eq (by simp [primaryLiteral, alts_apply, bind_apply, tok_cons, integralNumber, realNumber, texts, opt, or_apply, pure_apply, hx])
  | unbased t => obtain ⟨x, rfl, hx, rfl⟩ := h; exact First.of_eq (by simp [primaryLiteral, alts_apply, bind_apply, tok_cons, integralNumber, realNumber, texts, opt, or_apply, pure_apply, hx])
  | str t => obtain ⟨x, rfl, hx, rfl⟩ := h; exact First.of_eq (by simp [primaryLiteral, alts_apply, bind_apply, tok_cons, integralNumber, realNumber, texts, opt, or_apply, pure_apply, hx])
  | integral n =>
    rcases n with t | ⟨_ | n, t⟩ | t
    · obtain ⟨x, rfl, hx, rfl⟩ := h; exact First.of_eq (by simp [primaryLiteral, alts_apply, bind_apply, tok_cons, integralNumber, realNumber, texts, opt, or_apply, pure_apply, hx])
    · obtain ⟨x, rfl, hx, rfl⟩ := h; exact First.of_eq (by simp [primaryLiteral, alts_apply, bind_apply, tok_cons, integralNumber, realNumber, texts, opt, or_apply, pure_apply, hx])
    · obtain ⟨_, _, rfl, ⟨x, rfl, hx, rfl⟩, ⟨y, rfl, hy, rfl⟩⟩ := h
      exact ⟨[], [(.integral (.unsigned x.text), y :: R)], by simp [primaryLiteral, alts_apply, bind_apply, tok_cons, integralNumber, realNumber, texts, opt, or_apply, pure_apply, hx, hy], by simp⟩
    · obtain ⟨x, rfl, hx, rfl⟩ := h; exact First.of_eq (by simp [primaryLiteral, alts_apply, bind_apply, tok_cons, integralNumber, realNumber, texts, opt, or_apply, pure_apply, hx, hn])
  | real t =>
    obtain ⟨x, rfl, hx | hx, rfl⟩ := h
    · exact First.of_eq (by simp [primaryLiteral, alts_apply, bind_apply, tok_cons, integralNumber, realNumber, texts, opt, or_apply, pure_apply, hx])
    · exact First.of_eq (by simp [primaryLiteral, alts_apply, bind_apply, tok_cons, integralNumber, realNumber, texts, opt, or_apply, pure_apply, hx])
  | null => obtain ⟨x, rfl, hx⟩ := h; exact First.of_eq (by simp [primaryLiteral, alts_apply, bind_apply, tok_cons, integralNumber, realNumber, texts, opt, or_apply, pure_apply, hx])
  | this => exact h.elim
  | dolar => obtain ⟨x, rfl, hx⟩ := h; exact First.of_eq (by simp [primaryLiteral, alts_apply, bind_apply, tok_cons, integralNumber, realNumber, texts, opt, or_apply, pure_apply, hx])

end Verif.Sv
