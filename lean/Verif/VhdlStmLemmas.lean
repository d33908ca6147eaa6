import Verif.Props.VhdlExpr
import Verif.Vhdl.Stm
import Verif.Spec.VhdlUnit
/-!
# VHDL sequential statements: the supported fragment, and the induction over the parse tree
-/
namespace Verif.Vhdl
open Verif Verif.Spec

/-- What is asked of the interpretation of statements: a loop while the identifier `True` is an endless loop, and the body of a
generate statement that consists of one thing is this thing. -/
structure SAgrees {V S : Type} (B : SAlg V S) (leaf : Expr → V) : Prop where
  forever : ∀ b, B.while_ (leaf (.id none (c! "True"))) b = B.forever b
  one : ∀ s, B.gbody [s] = s

/-! ## The supported fragment -/

/-- One value without delay. -/
def okWave (w : Waveform) : Prop := ∃ x, w = .elems ⟨x, none⟩ [] ∧ okExpression x

def okTarget : Target → Prop
  | .name n => okName n
  | .agg l => okElems l

def okCondWaves (c : CondWaves) : Prop :=
  (∀ p ∈ c.head :: c.tail, okWave p.1 ∧ okExpression p.2) ∧ ∀ w, c.dflt = some w → okWave w

def okOpt (o : Option Expression) : Prop := ∀ e, o = some e → okExpression e

/-- No delay mechanism, no `force`, no `release`, no selected assignment. -/
def okSig : SigAssign → Prop
  | .wave t none w => okTarget t ∧ okWave w
  | .cond t none c => okTarget t ∧ okCondWaves c
  | _ => False

/-- A simple assignment. -/
def okVar : VarAssign → Prop
  | .simple t e => okTarget t ∧ okExpression e
  | _ => False

/-- The name of the called procedure. -/
def procName : Name → Name
  | .assoc n _ => n
  | .slice n _ => n
  | n => n

/-- The procedure is not called like one of the keywords that are used as names for statements. -/
def okCall (n : Name) : Prop :=
  okName n ∧ ∀ s ∈ [c! "assert", c! "report", c! "NEXT", c! "EXIT"], procName n ≠ .lit (.ident s)

/-- A number with a unit. -/
def isTime : Expression → Prop
  | .simple (.prim (.decUnit _ _)) => True
  | .simple (.prim (.basedUnit _ _)) => True
  | _ => False

def okIter : Iter → Prop
  | .forever => True
  | .while_ c => okExpression c
  | .for_ _ d => okDiscr d

/-- The number of choices `others`. -/
def nOthers (l : List Choice) : Nat := (l.filter Choice.isOthers).length

/-- The label behind `end`. -/
def SeqKind.endLabel : SeqKind → Option Str
  | .if_ _ _ _ _ l => l
  | .case_ _ _ _ l => l
  | .loop _ _ l => l
  | _ => none

/-- The choices of the alternatives. -/
def altChoices : List CaseAlt → List Choice
  | [] => []
  | .mk ch _ :: r => ch ++ altChoices r

mutual
/-- A label behind `end` is the label of the statement. A `wait` has a literal time; there is no `severity` without `report`; no
`case?`; `others` at most once; assignments, calls and expressions are in their fragments. -/
def okSeq : Seq → Prop
  | .mk label s => okSeqKind s ∧ (s.endLabel = none ∨ s.endLabel = label)
def okSeqs : List Seq → Prop
  | [] => True
  | s :: l => okSeq s ∧ okSeqs l
def okSeqKind : SeqKind → Prop
  | .wait on u f => (∀ n ∈ on, okName n) ∧ okOpt u ∧ okOpt f ∧ ∀ e, f = some e → isTime e
  | .assert_ c r s => okExpression c ∧ okOpt r ∧ okOpt s ∧ (r = none → s = none)
  | .report e s => okExpression e ∧ okOpt s
  | .sig a => okSig a
  | .var a => okVar a
  | .call n => okCall n
  | .if_ c t el f _ => okExpression c ∧ okSeqs t ∧ okElsIfs el ∧ okSeqElse f
  | .case_ q e alts _ => q = false ∧ okExpression e ∧ okAlts alts ∧ nOthers (altChoices alts) ≤ 1
  | .loop it b _ => okIter it ∧ okSeqs b
  | .next _ c => okOpt c
  | .exit _ c => okOpt c
  | .ret e => okOpt e
  | .null_ => True
def okElsIfs : List ElsIf → Prop
  | [] => True
  | .mk c l :: r => okExpression c ∧ okSeqs l ∧ okElsIfs r
def okSeqElse : SeqElse → Prop
  | .none => True
  | .some l => okSeqs l
def okAlts : List CaseAlt → Prop
  | [] => True
  | .mk ch l :: r => okChoices ch ∧ okSeqs l ∧ okAlts r
end

/-! ## Expressions are not the choice `others` -/

mutual
theorem notOthers_expression : ∀ (x : Expression) (e : Expr), visitExpression x = .ok e → isOthers e = false
  | .cond p, e, h => by
    simp only [visitExpression] at h; obtain ⟨a, ha, h⟩ := bind_ok h; cases h
    have hp := notOthers_primary p a ha
    have hn := nn_primary p a ha
    unfold aggToParen
    split
    · rename_i p x
      obtain ⟨q, l, rfl⟩ := hn.2 p x rfl
      rfl
    · exact hp
  | .simple s, e, h => by simp only [visitExpression] at h; exact notOthers_simple s e h
  | .shift a o b, e, h => by
    simp only [visitExpression] at h; obtain ⟨_, -, h⟩ := bind_ok h; obtain ⟨_, -, h⟩ := bind_ok h; cases h; rfl
  | .rel a o b, e, h => by
    simp only [visitExpression] at h; obtain ⟨_, -, h⟩ := bind_ok h; obtain ⟨_, -, h⟩ := bind_ok h; cases h; rfl
  | .logic a o b, e, h => by
    simp only [visitExpression] at h; obtain ⟨_, -, h⟩ := bind_ok h; obtain ⟨_, -, h⟩ := bind_ok h; cases h; rfl
theorem notOthers_simple : ∀ (x : Simple) (e : Expr), visitSimple x = .ok e → isOthers e = false
  | .prim p, e, h => by simp only [visitSimple] at h; exact notOthers_primary p e h
  | .pow a b, e, h => by
    simp only [visitSimple] at h; obtain ⟨_, -, h⟩ := bind_ok h; obtain ⟨_, -, h⟩ := bind_ok h; cases h; rfl
  | .abs s, e, h => by simp only [visitSimple] at h; obtain ⟨_, -, h⟩ := bind_ok h; cases h; rfl
  | .not s, e, h => by simp only [visitSimple] at h; obtain ⟨_, -, h⟩ := bind_ok h; cases h; rfl
  | .logic o s, e, h => by
    simp only [visitSimple] at h; obtain ⟨_, -, h⟩ := bind_ok h; obtain ⟨_, -, h⟩ := bind_ok h; cases h; rfl
  | .sign o s, e, h => by
    simp only [visitSimple] at h; obtain ⟨_, -, h⟩ := bind_ok h; obtain ⟨_, -, h⟩ := bind_ok h; cases h; rfl
  | .mul a o b, e, h => by
    simp only [visitSimple] at h; obtain ⟨_, -, h⟩ := bind_ok h; obtain ⟨_, -, h⟩ := bind_ok h; cases h; rfl
  | .add a o b, e, h => by
    simp only [visitSimple] at h; obtain ⟨_, -, h⟩ := bind_ok h; obtain ⟨_, -, h⟩ := bind_ok h; cases h; rfl
theorem notOthers_primary : ∀ (x : Primary) (e : Expr), visitPrimary x = .ok e → isOthers e = false
  | .name n, e, h => by simp only [visitPrimary] at h; exact notOthers_name h
  | .dec t, e, h => by
    simp only [visitPrimary, visitDec] at h; obtain ⟨v, -, h⟩ := bind_ok h; cases v <;> cases h <;> rfl
  | .decUnit t n, e, h => by
    simp only [visitPrimary] at h; obtain ⟨_, -, h⟩ := bind_ok h; obtain ⟨_, -, h⟩ := bind_ok h; cases h; rfl
  | .based t, e, h => by simp only [visitPrimary] at h; obtain ⟨_, -, h⟩ := bind_ok h; cases h; rfl
  | .basedUnit t n, e, h => by
    simp only [visitPrimary] at h; obtain ⟨_, -, h⟩ := bind_ok h; obtain ⟨_, -, h⟩ := bind_ok h; cases h; rfl
  | .bits t, e, h => by simp only [visitPrimary] at h; obtain ⟨_, -, h⟩ := bind_ok h; cases h; rfl
  | .null, e, h => by simp only [visitPrimary] at h; cases h; rfl
  | .newSub s, e, h => by simp only [visitPrimary] at h; obtain ⟨_, -, h⟩ := bind_ok h; cases h; rfl
  | .newQual t l, e, h => by
    simp only [visitPrimary] at h; obtain ⟨_, -, h⟩ := bind_ok h; obtain ⟨_, -, h⟩ := bind_ok h; cases h; rfl
  | .agg l, e, h => by
    simp only [visitPrimary] at h; obtain ⟨el, hl, h⟩ := bind_ok h; cases h; exact notOthers_agg l el hl
  | .qual t l, e, h => by
    simp only [visitPrimary] at h; obtain ⟨_, -, h⟩ := bind_ok h; obtain ⟨_, -, h⟩ := bind_ok h; cases h; rfl
theorem notOthers_name {n : Name} {e : Expr} (h : visitName n = .ok e) : isOthers e = false := by
  cases n with
  | lit l =>
    simp only [visitName] at h
    cases l with
    | ident t => cases h; rfl
    | opSymbol t => simp only [visitNameLit] at h; obtain ⟨s, -, h⟩ := bind_ok h; cases h; rfl
    | chr t => simp only [visitNameLit] at h; obtain ⟨s, -, h⟩ := bind_ok h; cases h; rfl
  | external => simp only [visitName] at h; cases h; rfl
  | slice n r => simp only [visitName] at h; obtain ⟨a, -, h⟩ := bind_ok h; obtain ⟨b, -, h⟩ := bind_ok h; cases h; rfl
  | attr n sg d => simp only [visitName] at h; obtain ⟨a, -, h⟩ := bind_ok h; cases h; rfl
  | dot n s => simp only [visitName] at h; obtain ⟨a, -, h⟩ := bind_ok h; obtain ⟨b, -, h⟩ := bind_ok h; cases h; rfl
  | assoc n l => simp only [visitName] at h; obtain ⟨a, -, h⟩ := bind_ok h; obtain ⟨b, -, h⟩ := bind_ok h; cases h; rfl
theorem notOthers_agg : ∀ (l : List Elem) (el : List Expr), visitElems l = .ok el → isOthers (mkAggregate el) = false
  | [], el, h => by simp only [visitElems] at h; cases h; rfl
  | [.pos x], el, h => by
    simp only [visitElems, visitElem] at h
    obtain ⟨e, he, h⟩ := bind_ok h
    obtain ⟨l, hl, h⟩ := bind_ok h
    cases hl; cases h
    have := notOthers_expression x e he
    unfold mkAggregate; simp only
    split
    · rfl
    · exact this
  | [.named ch x], el, h => by
    simp only [visitElems, visitElem] at h
    obtain ⟨e, he, h⟩ := bind_ok h
    obtain ⟨l, hl, h⟩ := bind_ok h
    cases hl; cases h
    obtain ⟨a, -, he⟩ := bind_ok he
    obtain ⟨b, -, he⟩ := bind_ok he
    cases b with
    | nil => cases he
    | cons c b => cases he; rfl
  | x :: y :: l, el, h => by
    simp only [visitElems] at h
    obtain ⟨e, -, h⟩ := bind_ok h
    obtain ⟨l, hl, h⟩ := bind_ok h
    obtain ⟨f, -, hl⟩ := bind_ok hl
    obtain ⟨l, -, hl⟩ := bind_ok hl
    cases hl; cases h
    rfl
end

mutual
theorem notOthers_arrc : ∀ (a : ArrC) (t e : Expr), isOthers t = false → visitArrC t a = .ok e → isOthers e = false
  | .index l c, t, e, _, h => by
    simp only [visitArrC] at h; obtain ⟨_, -, h⟩ := bind_ok h; exact notOthers_elemc c _ e rfl h
  | .opn c, t, e, _, h => by simp only [visitArrC] at h; exact notOthers_elemc c _ e rfl h
theorem notOthers_elemc : ∀ (c : ElemC) (t e : Expr), isOthers t = false → visitElemC t c = .ok e → isOthers e = false
  | .none, t, e, ht, h => by simp only [visitElemC] at h; cases h; exact ht
  | .array a, t, e, ht, h => by simp only [visitElemC] at h; exact notOthers_arrc a t e ht h
  | .record, t, e, ht, h => by simp only [visitElemC] at h; cases h; rfl
end

theorem notOthers_constr {c : Constr} {t e : Expr} (ht : isOthers t = false) (h : visitConstr t c = .ok e) : isOthers e = false := by
  cases c with
  | none => simp only [visitConstr] at h; cases h; exact ht
  | range r => simp only [visitConstr] at h; obtain ⟨_, -, h⟩ := bind_ok h; cases h; rfl
  | array a => simp only [visitConstr] at h; exact notOthers_arrc a t e ht h
  | record => simp only [visitConstr] at h; cases h; rfl

theorem notOthers_choice {c : Choice} {e : Expr} (h : visitChoice c = .ok e) : isOthers e = Choice.isOthers c := by
  cases c with
  | others => simp only [visitChoice] at h; cases h; rfl
  | simple s => simp only [visitChoice] at h; exact notOthers_simple s e h
  | discr d =>
    simp only [visitChoice] at h
    cases d with
    | range r =>
      simp only [visitDiscr] at h
      cases r with
      | attr n sg d => simp only [visitRange] at h; obtain ⟨_, -, h⟩ := bind_ok h; cases h; rfl
      | expl r =>
        obtain ⟨a, b, c⟩ := r
        simp only [visitRange, visitERange] at h
        obtain ⟨_, -, h⟩ := bind_ok h; obtain ⟨_, -, h⟩ := bind_ok h; cases h; rfl
    | sub s =>
      obtain ⟨r, tm, c⟩ := s
      simp only [visitDiscr, visitSubInd] at h
      obtain ⟨a, ha, h⟩ := bind_ok h
      obtain ⟨b, hb, h⟩ := bind_ok h
      obtain ⟨d, hd, h⟩ := bind_ok h
      have := notOthers_constr (notOthers_name hb) hd
      cases a <;> cases h <;> first | exact this | rfl

/-! ## Parts of statements -/

variable {V S : Type} {A : Alg V} {B : SAlg V S} {leaf : Expr → V}

theorem mapInfo_const {o : Obj} {i : StmInfo} (f : StmInfo → StmInfo) (h : o.info? = some i) : o.mapInfo f = o.mapInfo fun _ => f i := by
  cases o <;> simp [Obj.info?] at h <;> simp [Obj.mapInfo, h]

theorem mapInfo_self {o : Obj} {i : StmInfo} (h : o.info? = some i) : (o.mapInfo fun _ => i) = o := by
  cases o <;> simp [Obj.info?] at h <;> simp [Obj.mapInfo, h]

theorem mkAssign_ok {dst src : Expr} {vd vs : V} (hd : astEval A leaf dst = some vd) (hs : astEval A leaf src = some vs) (b : Bool) :
    mkAssign dst src .null none b = .ok (.assign {} dst src .null none b) := by
  cases dst <;> first | (simp [astEval] at hd; done) | (cases src <;> first | (simp [astEval] at hs; done) | rfl)

theorem target_eval (hA : Agrees A leaf) {t : Target} (h : okTarget t) :
    ∃ e, visitTarget t = .ok e ∧ astEval A leaf e = some (evTarget A t) := by
  cases t with
  | name n => obtain ⟨e, h1, h2, -⟩ := name_eval hA n h; exact ⟨e, h1, h2⟩
  | agg l =>
    obtain ⟨el, h1, h2, -⟩ := agg_eval hA l h
    exact ⟨_, by simp only [visitTarget, h1, bind, Except.bind, pure, Except.pure], h2⟩

theorem wave_eval (hA : Agrees A leaf) {w : Waveform} (h : okWave w) :
    ∃ e, visitWaveform w = .ok e ∧ astEval A leaf e = some (evWaveform A w) := by
  obtain ⟨x, rfl, hx⟩ := h
  obtain ⟨e, h1, h2, -⟩ := expression_eval hA x hx
  exact ⟨e, by simp [visitWaveform, visitWaveElem, visitWaveTail, h1, bind, Except.bind], by simpa [evWaveform] using h2⟩

theorem opt_eval (hA : Agrees A leaf) {o : Option Expression} (h : okOpt o) :
    ∃ l, visitOpt o = .ok l ∧ astEvals A leaf l = some (o.map (evExpression A)).toList ∧ l.length = o.toList.length := by
  cases o with
  | none => exact ⟨[], rfl, rfl, rfl⟩
  | some e =>
    obtain ⟨x, h1, h2, -⟩ := expression_eval hA e (h e rfl)
    exact ⟨[x], by simp only [visitOpt, h1, bind, Except.bind, pure, Except.pure], astEvals_one h2, rfl⟩

theorem astEvals_append {l₁ l₂ : List Expr} {v₁ v₂ : List V} (h₁ : astEvals A leaf l₁ = some v₁) (h₂ : astEvals A leaf l₂ = some v₂) :
    astEvals A leaf (l₁ ++ l₂) = some (v₁ ++ v₂) := by
  induction l₁ generalizing v₁ with
  | nil => simp [astEvals] at h₁; subst h₁; simpa using h₂
  | cons e l ih =>
    simp only [astEvals, Option.bind_eq_bind] at h₁
    obtain ⟨a, ha, h₁⟩ := Option.bind_eq_some_iff.1 h₁
    obtain ⟨b, hb, h₁⟩ := Option.bind_eq_some_iff.1 h₁
    simp only [pure, Option.some.injEq] at h₁
    subst h₁
    simp [astEvals, ha, ih hb]

theorem names_eval (hA : Agrees A leaf) : ∀ l : List Name, (∀ n ∈ l, okName n) →
    ∃ el, visitNames l = .ok el ∧ astEvals A leaf el = some (l.map (evName A))
  | [], _ => ⟨[], rfl, rfl⟩
  | n :: l, h => by
    obtain ⟨e, h1, h2, -⟩ := name_eval hA n (h n (by simp))
    obtain ⟨el, h3, h4⟩ := names_eval hA l fun m hm => h m (by simp [hm])
    exact ⟨e :: el, by simp only [visitNames, h1, h3, bind, Except.bind, pure, Except.pure], by simp [astEvals, h2, h4]⟩

/-- Not a negation and not a number with a unit. -/
def plainName : Expr → Bool
  | .op _ .NEG _ => false
  | .op _ .UNIT_SPEC _ => false
  | _ => true

theorem plainName_name {n : Name} {e : Expr} (h : visitName n = .ok e) : plainName e = true := by
  cases n with
  | lit l =>
    simp only [visitName] at h
    cases l with
    | ident t => cases h; rfl
    | opSymbol t => simp only [visitNameLit] at h; obtain ⟨s, -, h⟩ := bind_ok h; cases h; rfl
    | chr t => simp only [visitNameLit] at h; obtain ⟨s, -, h⟩ := bind_ok h; cases h; rfl
  | external => simp only [visitName] at h; cases h; rfl
  | slice n r => simp only [visitName] at h; obtain ⟨a, -, h⟩ := bind_ok h; obtain ⟨b, -, h⟩ := bind_ok h; cases h; rfl
  | attr n sg d => simp only [visitName] at h; obtain ⟨a, -, h⟩ := bind_ok h; cases h; rfl
  | dot n s => simp only [visitName] at h; obtain ⟨a, -, h⟩ := bind_ok h; obtain ⟨b, -, h⟩ := bind_ok h; cases h; rfl
  | assoc n l => simp only [visitName] at h; obtain ⟨a, -, h⟩ := bind_ok h; obtain ⟨b, -, h⟩ := bind_ok h; cases h; rfl

theorem astWait_plain {e : Expr} (he : plainName e = true) (l : List Expr) :
    astWait A leaf (e :: l) = (do
      let e ← astEval A leaf e
      let r ← astWait A leaf l
      return (e :: r.1, r.2)) := by
  conv_lhs => unfold astWait
  split
  · rename_i h; cases h
  · rename_i h; cases h; simp [plainName] at he
  · rename_i h; cases h; simp [plainName] at he
  · rename_i h; cases h; simp [plainName] at he
  · rename_i h; cases h; rfl

theorem astWait_names (hA : Agrees A leaf) : ∀ (l : List Name) (el tl : List Expr) (r : List V × Option V × Option V),
    (∀ n ∈ l, okName n) → visitNames l = .ok el → astWait A leaf tl = some r →
    astWait A leaf (el ++ tl) = some (l.map (evName A) ++ r.1, r.2)
  | [], el, tl, r, _, he, ht => by cases he; simpa using ht
  | n :: l, el, tl, r, h, he, ht => by
    simp only [visitNames] at he
    obtain ⟨e, h1, he⟩ := bind_ok he
    obtain ⟨el', h2, he⟩ := bind_ok he
    cases he
    obtain ⟨e', h3, h4, -⟩ := name_eval hA n (h n (by simp))
    rw [h1] at h3; cases h3
    rw [List.cons_append, astWait_plain (plainName_name h1), astWait_names hA l el' tl r (fun m hm => h m (by simp [hm])) h2 ht, h4]
    rfl

theorem time_shape {x : Expression} {e : Expr} (hx : isTime x) (h : visitExpression x = .ok e) : ∃ p l, e = .op p .UNIT_SPEC l := by
  unfold isTime at hx
  split at hx
  · simp only [visitExpression, visitSimple, visitPrimary] at h
    obtain ⟨_, -, h⟩ := bind_ok h; obtain ⟨_, -, h⟩ := bind_ok h; cases h; exact ⟨_, _, rfl⟩
  · simp only [visitExpression, visitSimple, visitPrimary] at h
    obtain ⟨_, -, h⟩ := bind_ok h; obtain ⟨_, -, h⟩ := bind_ok h; cases h; exact ⟨_, _, rfl⟩
  · cases hx

theorem wait_eval (hA : Agrees A leaf) {on : List Name} {u f : Option Expression} (hon : ∀ n ∈ on, okName n) (hu : okOpt u)
    (hf : okOpt f) (ht : ∀ e, f = some e → isTime e) :
    ∃ l, visitWait on u f = .ok (.wait {} l) ∧
      astWait A leaf l = some (on.map (evName A), u.map (evExpression A), f.map (evExpression A)) := by
  obtain ⟨el, h1, -⟩ := names_eval hA on hon
  have key : ∃ ul fl, visitUntil u = .ok ul ∧ visitOpt f = .ok fl ∧
      astWait A leaf (ul ++ fl) = some ([], u.map (evExpression A), f.map (evExpression A)) := by
    cases u with
    | none =>
      cases f with
      | none => exact ⟨[], [], rfl, rfl, by simp [astWait]⟩
      | some t =>
        obtain ⟨e, h2, h3, -⟩ := expression_eval hA t (hf t rfl)
        obtain ⟨p, l, rfl⟩ := time_shape (ht t rfl) h2
        refine ⟨[], [_], rfl, by simp only [visitOpt, h2, bind, Except.bind, pure, Except.pure]; rfl, ?_⟩
        simp [astWait, h3]
    | some c =>
      obtain ⟨ec, hc1, hc2, -⟩ := expression_eval hA c (hu c rfl)
      cases f with
      | none =>
        refine ⟨[_], [], by simp only [visitUntil, hc1, bind, Except.bind, pure, Except.pure]; rfl, rfl, ?_⟩
        simp [astWait, Expr.mkUn, hc2]
      | some t =>
        obtain ⟨e, h2, h3, -⟩ := expression_eval hA t (hf t rfl)
        obtain ⟨p, l, rfl⟩ := time_shape (ht t rfl) h2
        refine ⟨[_], [_], by simp only [visitUntil, hc1, bind, Except.bind, pure, Except.pure]; rfl,
          by simp only [visitOpt, h2, bind, Except.bind, pure, Except.pure]; rfl, ?_⟩
        simp [astWait, Expr.mkUn, hc2, h3]
  obtain ⟨ul, fl, h2, h3, h4⟩ := key
  refine ⟨el ++ ul ++ fl, by simp only [visitWait, h1, h2, h3, bind, Except.bind, pure, Except.pure], ?_⟩
  rw [List.append_assoc, astWait_names hA on el _ _ hon h1 h4]
  simp

theorem call_eval (hA : Agrees A leaf) {n : Name} (h : okCall n) :
    ∃ e, visitProcCall n = .ok e ∧ astCall A B leaf e = some (evCall A B n) := by
  obtain ⟨p, f, l, h1, h2⟩ := C62_procedure_call_operands n
    (match visitProcCall n with | .ok e => e | .error _ => .null) (by
      obtain ⟨p, f, l, h1, -⟩ := C62_procedure_call A leaf hA n h.1
      rw [h1])
  obtain ⟨p', f', l', h1', h2'⟩ := C62_procedure_call A leaf hA n h.1
  rw [h1'] at h1
  obtain ⟨rfl, -, he⟩ := Expr.op.inj h1
  obtain ⟨rfl, rfl⟩ := List.cons.inj he
  refine ⟨_, h1', ?_⟩
  have hfn : visitName (procName n) = .ok f' := by cases n <;> exact h2.1
  have hev : ∃ vl, astEval A leaf f' = some (evName A (procName n)) ∧ astEvals A leaf l' = some vl ∧
      evCall A B n = B.call (evName A (procName n)) vl := by
    cases n with
    | assoc m args => exact ⟨_, h2'.1, h2'.2, rfl⟩
    | slice m r => exact ⟨_, h2'.1, h2'.2, rfl⟩
    | lit t => obtain ⟨ha, rfl⟩ := h2'; exact ⟨[], ha, rfl, rfl⟩
    | external => obtain ⟨ha, rfl⟩ := h2'; exact ⟨[], ha, rfl, rfl⟩
    | attr m sg d => obtain ⟨ha, rfl⟩ := h2'; exact ⟨[], ha, rfl, rfl⟩
    | dot m s => obtain ⟨ha, rfl⟩ := h2'; exact ⟨[], ha, rfl, rfl⟩
  obtain ⟨vl, hf1, hl1, hev⟩ := hev
  rw [hev]
  cases f' with
  | id p s =>
    have hs : ∀ k ∈ [c! "assert", c! "report", c! "NEXT", c! "EXIT"], s ≠ k := by
      rintro k hk rfl
      refine h.2 s hk ?_
      revert hfn
      generalize procName n = m
      intro hfn
      cases m with
      | lit l =>
        simp only [visitName] at hfn
        cases l with
        | ident t => cases hfn; rfl
        | opSymbol t => simp only [visitNameLit] at hfn; obtain ⟨s, -, hfn⟩ := bind_ok hfn; cases hfn
        | chr t => simp only [visitNameLit] at hfn; obtain ⟨s, -, hfn⟩ := bind_ok hfn; cases hfn
      | external => simp only [visitName] at hfn; cases hfn
      | slice n r => simp only [visitName] at hfn; obtain ⟨a, -, hfn⟩ := bind_ok hfn; obtain ⟨b, -, hfn⟩ := bind_ok hfn; cases hfn
      | attr n sg d => simp only [visitName] at hfn; obtain ⟨a, -, hfn⟩ := bind_ok hfn; cases hfn
      | dot n s => simp only [visitName] at hfn; obtain ⟨a, -, hfn⟩ := bind_ok hfn; obtain ⟨b, -, hfn⟩ := bind_ok hfn; cases hfn
      | assoc n l => simp only [visitName] at hfn; obtain ⟨a, -, hfn⟩ := bind_ok hfn; obtain ⟨b, -, hfn⟩ := bind_ok hfn; cases hfn
    simp only [astCall]
    rw [if_neg (hs _ (by simp)), if_neg (hs _ (by simp)), if_neg (hs _ (by simp)), if_neg (hs _ (by simp)), hl1]
    simp only [astEval, Option.some.injEq] at hf1
    simp [hf1]
  | null => simp [astEval] at hf1
  | _ => simp only [astCall, hf1, hl1]; rfl

theorem next_eval (hA : Agrees A leaf) {c : Option Expression} (h : okOpt c) (label : Option Str) (fn : Str) :
    ∃ args, visitNextOrExit fn label c = .ok (.expr {} (.mkCall none (.id none fn) args)) ∧
      astNext A leaf args = some (label, c.map (evExpression A)) := by
  cases c with
  | none => cases label <;> exact ⟨_, rfl, by simp [astNext]⟩
  | some c =>
    obtain ⟨e, h1, h2, -⟩ := expression_eval hA c (h c rfl)
    cases label
    · exact ⟨_, by simp only [visitNextOrExit, visitOpt, h1, bind, Except.bind, pure, Except.pure]; rfl, by simp [astNext, h2]⟩
    · exact ⟨_, by simp only [visitNextOrExit, visitOpt, h1, bind, Except.bind, pure, Except.pure]; rfl, by simp [astNext, h2]⟩

/-! ## Alternatives -/

theorem astBranches_append {l₁ l₂ : List Branch} {v₁ v₂ : List (V × S)} (h₁ : astBranches A B leaf l₁ = some v₁)
    (h₂ : astBranches A B leaf l₂ = some v₂) : astBranches A B leaf (l₁ ++ l₂) = some (v₁ ++ v₂) := by
  induction l₁ generalizing v₁ with
  | nil => simp [astBranches] at h₁; subst h₁; simpa using h₂
  | cons b l ih =>
    obtain ⟨e, o⟩ := b
    simp only [astBranches, Option.bind_eq_bind] at h₁
    obtain ⟨a, ha, h₁⟩ := Option.bind_eq_some_iff.1 h₁
    obtain ⟨c, hc, h₁⟩ := Option.bind_eq_some_iff.1 h₁
    obtain ⟨d, hd, h₁⟩ := Option.bind_eq_some_iff.1 h₁
    simp only [pure, Option.some.injEq] at h₁
    subst h₁
    simp [astBranches, ha, hc, ih hd]

theorem choices_list (hA : Agrees A leaf) : ∀ ch : List Choice, okChoices ch →
    ∃ el, visitChoices ch = .ok el ∧ List.Forall₂ (fun c e => visitChoice c = .ok e ∧ astEval A leaf e = some (evChoice A c)) ch el
  | [], _ => ⟨[], by simp [visitChoices], .nil⟩
  | c :: l, h => by
    simp only [okChoices] at h
    obtain ⟨e, h1, h2⟩ := choice_eval hA c h.1
    obtain ⟨el, h3, h4⟩ := choices_list hA l h.2
    exact ⟨e :: el, by simp only [visitChoices, h1, h3, bind, Except.bind, pure, Except.pure], .cons ⟨h1, h2⟩ h4⟩

theorem nOthers_append (l₁ l₂ : List Choice) : nOthers (l₁ ++ l₂) = nOthers l₁ + nOthers l₂ := by
  simp [nOthers]

/-- The default before (`d₀`) and after (`d`) alternatives with `n` choices `others`, whose meaning is `r`. -/
def DfltOk (A : Alg V) (B : SAlg V S) (leaf : Expr → V) (n : Nat) (d₀ d : Obj) (r : Option S) : Prop :=
  (n = 0 ∧ d = d₀ ∧ r = none) ∨ (n = 1 ∧ ∃ v, r = some v ∧ astObj A B leaf d = some v)

theorem addChoices_eval {b : Obj} {v : S} (hb : astObj A B leaf b = some v) :
    ∀ (ch : List Choice) (el : List Expr) (acc : List Branch) (d₀ : Obj),
    List.Forall₂ (fun c e => visitChoice c = .ok e ∧ astEval A leaf e = some (evChoice A c)) ch el →
    (nOthers ch = 0 ∨ nOthers ch = 1 ∧ d₀ = .null) →
    ∃ bs d, addChoices b el (acc, d₀) = .ok (acc ++ bs, d) ∧
      astBranches A B leaf bs = some ((ch.filter fun c => !Choice.isOthers c).map fun c => (evChoice A c, v)) ∧
      DfltOk A B leaf (nOthers ch) d₀ d (if ch.any Choice.isOthers then some v else none)
  | [], _, acc, d₀, .nil, _ => ⟨[], d₀, by simp [addChoices], by simp [astBranches], .inl ⟨rfl, rfl, rfl⟩⟩
  | c :: l, e :: el, acc, d₀, .cons ⟨h1, h2⟩ h3, hn => by
    have ho := notOthers_choice h1
    cases hc : Choice.isOthers c with
    | false =>
      have hl : nOthers (c :: l) = nOthers l := by simp [nOthers, hc]
      rw [hl] at hn
      obtain ⟨bs, d, hb1, hb2, hb3⟩ := addChoices_eval hb l el (acc ++ [.mk e b]) d₀ h3 hn
      refine ⟨.mk e b :: bs, d, ?_, ?_, ?_⟩
      · simp only [addChoices, addChoice, ho, hc, Bool.false_eq_true, if_false, bind, Except.bind]
        rw [hb1]; simp
      · simp [astBranches, h2, hb, hb2, hc]
      · rw [hl]; simpa [hc] using hb3
    | true =>
      have hl : nOthers (c :: l) = nOthers l + 1 := by simp [nOthers, hc]
      have hn0 : nOthers l = 0 := by rcases hn with h | h <;> omega
      have hd0 : d₀ = .null := by
        rcases hn with h | h
        · omega
        · exact h.2
      subst hd0
      obtain ⟨bs, d, hb1, hb2, hb3⟩ := addChoices_eval hb l el acc b h3 (.inl hn0)
      refine ⟨bs, d, ?_, ?_, ?_⟩
      · simp only [addChoices, addChoice, ho, hc, if_true, bind, Except.bind]
        exact hb1
      · simpa [hc] using hb2
      · right
        rcases hb3 with ⟨-, h4, -⟩ | ⟨h4, -⟩
        · subst h4; exact ⟨by omega, v, by simp [hc], hb⟩
        · omega

/-! ## Sequential statements -/

theorem withLabel_end (l : Option Str) (e : Option Str) (h : e = none ∨ e = l) (v : S) :
    withLabel B (l.toList ++ e.toList) (some v) = some (evLabel B l v) := by
  rcases h with rfl | rfl
  · cases l <;> simp [withLabel, evLabel]
  · cases e <;> simp [withLabel, evLabel]

/-- The object of a statement: its labels are `ls`, and with other labels it has the meaning `v` with these labels. -/
def StmOk (A : Alg V) (B : SAlg V S) (leaf : Expr → V) (o : Obj) (ls : List Str) (v : S) : Prop :=
  o.info? = some ⟨ls, false⟩ ∧ ∀ ls', astObj A B leaf (o.mapInfo fun _ => ⟨ls', false⟩) = withLabel B ls' (some v)

theorem StmOk.label {k : SeqKind} {o : Obj} {ls : List Str} {v : S} (hk : visitSeqKind k = .ok o) (h : StmOk A B leaf o ls v) (l : Option Str) :
    ∃ o', visitSeq (.mk l k) = .ok o' ∧ astObj A B leaf o' = withLabel B (l.toList ++ ls) (some v) := by
  obtain ⟨h1, h2⟩ := h
  cases l with
  | none => exact ⟨o, by simp [visitSeq, hk, bind, Except.bind, pure, Except.pure], by rw [← mapInfo_self h1, h2]; rfl⟩
  | some l =>
    refine ⟨pushLabel l o, ?_, ?_⟩
    · simp only [visitSeq, hk, bind, Except.bind]
      cases o <;> first | (simp [Obj.info?] at h1; done) | rfl
    · rw [pushLabel, mapInfo_const _ h1, h2]; rfl

theorem StmOk.end_ {o : Obj} {v : S} (h : StmOk A B leaf o [] v) (e : Option Str) : StmOk A B leaf (appendLabel e o) e.toList v := by
  cases e with
  | none => exact h
  | some e =>
    obtain ⟨h1, h2⟩ := h
    refine ⟨?_, fun ls' => ?_⟩
    · cases o <;> simp [Obj.info?] at h1 <;> simp [appendLabel, Obj.mapInfo, Obj.info?, h1]
    · rw [← h2 ls']; congr 1
      cases o <;> simp [Obj.info?] at h1 <;> simp [appendLabel, Obj.mapInfo]

theorem assign_eval {dst src : Expr} {vd vs : V} (hd : astEval A leaf dst = some vd) (hs : astEval A leaf src = some vs) (b : Bool) :
    StmOk A B leaf (.assign {} dst src .null none b) [] (if b then B.var vd vs else B.sig vd vs) :=
  ⟨rfl, fun ls' => by simp [Obj.mapInfo, astObj, hd, hs]⟩

theorem expr_eval {e : Expr} {v : S} (h : astCall A B leaf e = some v) : StmOk A B leaf (.expr {} e) [] v :=
  ⟨rfl, fun ls' => by simp [Obj.mapInfo, astObj, h]⟩

theorem sig_eval (hA : Agrees A leaf) {a : SigAssign} (h : okSig a) :
    ∃ o, visitSigAssign a = .ok o ∧ StmOk A B leaf o [] (evSigAssign A B a) := by
  unfold okSig at h
  split at h
  · obtain ⟨ed, hd1, hd2⟩ := target_eval hA h.1
    obtain ⟨es, hs1, hs2⟩ := wave_eval hA h.2
    exact ⟨_, by simp only [visitSigAssign, hd1, hs1, bind, Except.bind]; exact mkAssign_ok hd2 hs2 false,
      by simpa [evSigAssign, evDelay] using assign_eval hd2 hs2 false⟩
  · rename_i t c
    obtain ⟨ed, hd1, hd2⟩ := target_eval hA h.1
    obtain ⟨es, hs1, hs2⟩ := C38_meaning_partial A leaf hA c h.2.1 h.2.2
    exact ⟨_, by simp only [visitSigAssign, hd1, hs1, bind, Except.bind]; exact mkAssign_ok hd2 hs2 false,
      by simpa [evSigAssign, evDelay] using assign_eval hd2 hs2 false⟩
  · cases h

theorem var_eval (hA : Agrees A leaf) {a : VarAssign} (h : okVar a) :
    ∃ o, visitVarAssign a = .ok o ∧ StmOk A B leaf o [] (evVarAssign A B a) := by
  unfold okVar at h
  split at h
  · obtain ⟨ed, hd1, hd2⟩ := target_eval hA h.1
    obtain ⟨es, hs1, hs2, -⟩ := expression_eval hA _ h.2
    exact ⟨_, by simp only [visitVarAssign, hd1, hs1, bind, Except.bind]; exact mkAssign_ok hd2 hs2 true,
      by simpa [evVarAssign] using assign_eval hd2 hs2 true⟩
  · cases h

theorem assertion_eval (hA : Agrees A leaf) {c : Expression} {r s : Option Expression} (hc : okExpression c) (hr : okOpt r)
    (hs : okOpt s) (hrs : r = none → s = none) :
    ∃ o, visitAssertion c r s = .ok o ∧
      StmOk A B leaf o [] (B.assert_ (evExpression A c) (r.map (evExpression A)) (s.map (evExpression A))) := by
  obtain ⟨e, h1, h2, -⟩ := expression_eval hA c hc
  cases r with
  | none =>
    obtain rfl := hrs rfl
    refine ⟨_, by simp only [visitAssertion, visitOpt, h1, bind, Except.bind, pure, Except.pure]; rfl, expr_eval ?_⟩
    simp [Expr.mkCall, astCall, astEvals, h2]
  | some r =>
    obtain ⟨er, hr1, hr2, -⟩ := expression_eval hA r (hr r rfl)
    cases s with
    | none =>
      refine ⟨_, by simp only [visitAssertion, visitOpt, h1, hr1, bind, Except.bind, pure, Except.pure]; rfl, expr_eval ?_⟩
      simp [Expr.mkCall, astCall, astEvals, h2, hr2]
    | some s =>
      obtain ⟨es, hs1, hs2, -⟩ := expression_eval hA s (hs s rfl)
      refine ⟨_, by simp only [visitAssertion, visitOpt, h1, hr1, hs1, bind, Except.bind, pure, Except.pure]; rfl, expr_eval ?_⟩
      simp [Expr.mkCall, astCall, astEvals, h2, hr2, hs2]

theorem report_eval (hA : Agrees A leaf) {e : Expression} {s : Option Expression} (he : okExpression e) (hs : okOpt s) :
    ∃ o, visitReport e s = .ok o ∧ StmOk A B leaf o [] (B.report (evExpression A e) (s.map (evExpression A))) := by
  obtain ⟨x, h1, h2, -⟩ := expression_eval hA e he
  cases s with
  | none =>
    refine ⟨_, by simp only [visitReport, visitOpt, h1, bind, Except.bind, pure, Except.pure]; rfl, expr_eval ?_⟩
    simp [Expr.mkCall, astCall, astEvals, h2]
  | some s =>
    obtain ⟨es, hs1, hs2, -⟩ := expression_eval hA s (hs s rfl)
    refine ⟨_, by simp only [visitReport, visitOpt, h1, hs1, bind, Except.bind, pure, Except.pure]; rfl, expr_eval ?_⟩
    simp [Expr.mkCall, astCall, astEvals, h2, hs2]

theorem loop_eval (hA : Agrees A leaf) (hB : SAgrees B leaf) {it : Iter} (h : okIter it) {b : Obj} {vb : S}
    (hb : astObj A B leaf b = some vb) : ∃ o, mkLoop it b = .ok o ∧ StmOk A B leaf o [] (evLoop A B it vb) := by
  cases it with
  | forever =>
    refine ⟨_, rfl, rfl, fun ls' => ?_⟩
    simp only [Obj.mapInfo, astObj, hb, astEval]
    simp [hB.forever, evLoop]
  | while_ c =>
    obtain ⟨e, h1, h2, -⟩ := expression_eval hA c h
    refine ⟨.while_ {} e b, by simp only [mkLoop, h1, bind, Except.bind, pure, Except.pure], rfl, fun ls' => ?_⟩
    simp [Obj.mapInfo, astObj, hb, h2, evLoop]
  | for_ i d =>
    obtain ⟨e, h1, h2⟩ := discr_eval hA d h
    refine ⟨.forIn {} [.expr {} (.id none i)] e b, by simp only [mkLoop, h1, bind, Except.bind, pure, Except.pure], rfl, fun ls' => ?_⟩
    simp [Obj.mapInfo, astObj, hb, h2, evLoop]

theorem optObj_some {o : Obj} {v : S} (h : astObj A B leaf o = some v) : optObj o (astObj A B leaf o) = some (some v) := by
  rw [h]; cases o <;> first | rfl | (simp [astObj] at h)

mutual
theorem seq_eval (hA : Agrees A leaf) (hB : SAgrees B leaf) : ∀ s : Seq, okSeq s →
    ∃ o, visitSeq s = .ok o ∧ astObj A B leaf o = some (evSeq A B s)
  | .mk label k, h => by
    simp only [okSeq] at h
    obtain ⟨o, h1, h2⟩ := kind_eval hA hB k h.1
    obtain ⟨o', h3, h4⟩ := h2.label h1 label
    rw [withLabel_end _ _ h.2] at h4
    exact ⟨o', h3, by simpa [evSeq] using h4⟩
theorem seqs_eval (hA : Agrees A leaf) (hB : SAgrees B leaf) : ∀ l : List Seq, okSeqs l →
    ∃ os, visitSeqs l = .ok os ∧ visitSeqsNN l = .ok os ∧ astObjs A B leaf os = some (evSeqs A B l)
  | [], _ => ⟨[], by simp [visitSeqs], by simp [visitSeqsNN], by simp [astObjs, evSeqs]⟩
  | s :: l, h => by
    simp only [okSeqs] at h
    obtain ⟨o, h1, h2⟩ := seq_eval hA hB s h.1
    obtain ⟨os, h3, h4, h5⟩ := seqs_eval hA hB l h.2
    refine ⟨o :: os, by simp only [visitSeqs, h1, h3, bind, Except.bind, pure, Except.pure], ?_, by simp [astObjs, h2, h5, evSeqs]⟩
    simp only [visitSeqsNN, h1, h4, bind, Except.bind, pure, Except.pure]
    cases o <;> first | (simp [astObj] at h2; done) | rfl
theorem kind_eval (hA : Agrees A leaf) (hB : SAgrees B leaf) : ∀ k : SeqKind, okSeqKind k →
    ∃ o, visitSeqKind k = .ok o ∧ StmOk A B leaf o k.endLabel.toList (evSeqKind A B k)
  | .wait on u f, h => by
    simp only [okSeqKind] at h
    obtain ⟨l, h1, h2⟩ := wait_eval hA h.1 h.2.1 h.2.2.1 h.2.2.2
    exact ⟨_, by simpa [visitSeqKind] using h1, rfl, fun ls' => by simp [Obj.mapInfo, astObj, h2, evSeqKind]⟩
  | .assert_ c r s, h => by
    simp only [okSeqKind] at h
    obtain ⟨o, h1, h2⟩ := assertion_eval hA h.1 h.2.1 h.2.2.1 h.2.2.2
    exact ⟨o, by simpa [visitSeqKind] using h1, by simpa [evSeqKind, SeqKind.endLabel] using h2⟩
  | .report e s, h => by
    simp only [okSeqKind] at h
    obtain ⟨o, h1, h2⟩ := report_eval hA h.1 h.2
    exact ⟨o, by simpa [visitSeqKind] using h1, by simpa [evSeqKind, SeqKind.endLabel] using h2⟩
  | .sig a, h => by
    simp only [okSeqKind] at h
    obtain ⟨o, h1, h2⟩ := sig_eval hA h
    exact ⟨o, by simpa [visitSeqKind] using h1, by simpa [evSeqKind, SeqKind.endLabel] using h2⟩
  | .var a, h => by
    simp only [okSeqKind] at h
    obtain ⟨o, h1, h2⟩ := var_eval hA h
    exact ⟨o, by simpa [visitSeqKind] using h1, by simpa [evSeqKind, SeqKind.endLabel] using h2⟩
  | .call n, h => by
    simp only [okSeqKind] at h
    obtain ⟨e, h1, h2⟩ := call_eval (B := B) hA h
    exact ⟨.expr {} e, by simp only [visitSeqKind, h1, bind, Except.bind, pure, Except.pure],
      by simpa [evSeqKind, SeqKind.endLabel] using expr_eval h2⟩
  | .if_ c t el f endl, h => by
    simp only [okSeqKind] at h
    obtain ⟨ec, hc1, hc2, -⟩ := expression_eval hA c h.1
    obtain ⟨ts, -, ht1, ht2⟩ := seqs_eval hA hB t h.2.1
    obtain ⟨fo, hf1, hf2⟩ := else_eval hA hB f h.2.2.2
    obtain ⟨els, hel1, hel2⟩ := elsifs_eval hA hB el h.2.2.1
    refine ⟨appendLabel endl (.if_ {} ec (.block {} .SEQ ts) els fo), by simp only [visitSeqKind, hc1, ht1, hel1, hf1, bind, Except.bind, pure, Except.pure], StmOk.end_ ⟨rfl, fun ls' => ?_⟩ endl⟩
    simp only [Obj.mapInfo, astObj, hc2, ht2, hf2, hel2, withLabel, Option.bind_eq_bind, Option.bind_some, Option.map_some, pure, evSeqKind,
      Bool.false_eq_true, if_false]
  | .case_ q e alts endl, h => by
    simp only [okSeqKind] at h
    obtain ⟨rfl, he, ha, hn⟩ := h
    obtain ⟨ee, he1, he2, -⟩ := expression_eval hA e he
    obtain ⟨bs, d, h1, h2, h3⟩ := alts_eval hA hB alts ha [] .null (by
      have : nOthers (altChoices alts) = 0 ∨ nOthers (altChoices alts) = 1 := by omega
      exact this.imp id fun h => ⟨h, rfl⟩)
    refine ⟨appendLabel endl (.case {} .NONE .CASE ee bs d), by simp only [visitSeqKind, he1, h1, List.nil_append, bind, Except.bind, pure, Except.pure], StmOk.end_ ⟨rfl, fun ls' => ?_⟩ endl⟩
    have hd : optObj d (astObj A B leaf d) = some (evOthers (evCaseAlts A B alts)) := by
      rcases h3 with ⟨-, rfl, h3⟩ | ⟨-, v, h3, h4⟩
      · rw [h3]; rfl
      · rw [h3]; exact optObj_some h4
    simp only [Obj.mapInfo, astObj, he2, h2, hd, Option.bind_eq_bind, Option.bind_some, pure, evSeqKind,
      Bool.false_eq_true, if_false]
  | .loop it b endl, h => by
    simp only [okSeqKind] at h
    obtain ⟨bs, -, hb1, hb2⟩ := seqs_eval hA hB b h.2
    obtain ⟨o, h1, h2⟩ := loop_eval hA hB h.1 (b := .block {} .SEQ bs) (vb := B.block (evSeqs A B b)) (by simp [astObj, hb2, withLabel])
    refine ⟨appendLabel endl o, by simp only [visitSeqKind, hb1, h1, bind, Except.bind, pure, Except.pure], ?_⟩
    simpa [evSeqKind, SeqKind.endLabel] using h2.end_ endl
  | .next l c, h => by
    simp only [okSeqKind] at h
    obtain ⟨args, h1, h2⟩ := next_eval hA h l (c! "NEXT")
    refine ⟨_, by simpa [visitSeqKind] using h1, ?_⟩
    have := expr_eval (A := A) (B := B) (leaf := leaf) (e := .mkCall none (.id none (c! "NEXT")) args) (v := B.next l (c.map (evExpression A)))
      (by simp [Expr.mkCall, astCall, h2])
    simpa [evSeqKind, SeqKind.endLabel] using this
  | .exit l c, h => by
    simp only [okSeqKind] at h
    obtain ⟨args, h1, h2⟩ := next_eval hA h l (c! "EXIT")
    refine ⟨_, by simpa [visitSeqKind] using h1, ?_⟩
    have := expr_eval (A := A) (B := B) (leaf := leaf) (e := .mkCall none (.id none (c! "EXIT")) args) (v := B.exit l (c.map (evExpression A)))
      (by simp [Expr.mkCall, astCall, h2])
    simpa [evSeqKind, SeqKind.endLabel] using this
  | .ret none, h => ⟨.return_ {} .null, by simp only [visitSeqKind, visitReturn], rfl, fun ls' => by simp [Obj.mapInfo, astObj, astOpt, evSeqKind]⟩
  | .ret (some e), h => by
    simp only [okSeqKind] at h
    obtain ⟨x, h1, h2, -⟩ := expression_eval hA e (h e rfl)
    refine ⟨.return_ {} x, by simp only [visitSeqKind, visitReturn, h1, bind, Except.bind, pure, Except.pure], rfl, fun ls' => ?_⟩
    have : astOpt A leaf x = some (some (evExpression A e)) := by
      cases x <;> first | (simp [astEval] at h2; done) | (simp only [astOpt, h2]; rfl)
    simp [Obj.mapInfo, astObj, this, evSeqKind]
  | .null_, h => ⟨.nop {}, by simp only [visitSeqKind], rfl, fun ls' => by simp [Obj.mapInfo, astObj, evSeqKind]⟩
theorem elsifs_eval (hA : Agrees A leaf) (hB : SAgrees B leaf) : ∀ l : List ElsIf, okElsIfs l →
    ∃ bs, visitElsIfs l = .ok bs ∧ ∀ f, astElifs A B leaf false bs f = some (evElsIfs A B l f)
  | [], _ => ⟨[], by simp [visitElsIfs], fun f => by simp [astElifs, evElsIfs]⟩
  | .mk c l :: r, h => by
    simp only [okElsIfs] at h
    obtain ⟨ec, hc1, hc2, -⟩ := expression_eval hA c h.1
    obtain ⟨ls, -, hl1, hl2⟩ := seqs_eval hA hB l h.2.1
    obtain ⟨rs, hr1, hr2⟩ := elsifs_eval hA hB r h.2.2
    refine ⟨_, by simp only [visitElsIfs, hc1, hl1, hr1, bind, Except.bind, pure, Except.pure]; rfl, fun f => ?_⟩
    simp [astElifs, hc2, astObj, hl2, withLabel, hr2, evElsIfs]
theorem else_eval (hA : Agrees A leaf) (hB : SAgrees B leaf) : ∀ f : SeqElse, okSeqElse f →
    ∃ o, visitSeqElse f = .ok o ∧ optObj o (astObj A B leaf o) = some (evSeqElse A B f)
  | .none, _ => ⟨.null, by simp [visitSeqElse], by simp [optObj, evSeqElse]⟩
  | .some l, h => by
    simp only [okSeqElse] at h
    obtain ⟨ls, -, hl1, hl2⟩ := seqs_eval hA hB l h
    refine ⟨.block {} .SEQ ls, by simp only [visitSeqElse, hl1, bind, Except.bind, pure, Except.pure], ?_⟩
    simp [optObj, astObj, hl2, withLabel, evSeqElse]
theorem alts_eval (hA : Agrees A leaf) (hB : SAgrees B leaf) : ∀ l : List CaseAlt, okAlts l → ∀ (acc : List Branch) (d₀ : Obj),
    (nOthers (altChoices l) = 0 ∨ nOthers (altChoices l) = 1 ∧ d₀ = .null) →
    ∃ bs d, visitAlts l (acc, d₀) = .ok (acc ++ bs, d) ∧ astBranches A B leaf bs = some (evAlts A (evCaseAlts A B l)) ∧
      DfltOk A B leaf (nOthers (altChoices l)) d₀ d (evOthers (evCaseAlts A B l))
  | [], _, acc, d₀, _ => ⟨[], d₀, by simp [visitAlts], by simp [astBranches, evAlts, evCaseAlts], .inl ⟨rfl, rfl, by simp [evOthers, evCaseAlts]⟩⟩
  | .mk ch l :: r, h, acc, d₀, hn => by
    simp only [okAlts] at h
    obtain ⟨el, hc1, hc2⟩ := choices_list hA ch h.1
    obtain ⟨ls, -, hl1, hl2⟩ := seqs_eval hA hB l h.2.1
    have hb : astObj A B leaf (.block {} .SEQ ls) = some (B.block (evSeqs A B l)) := by simp [astObj, hl2, withLabel]
    have hsum : nOthers (altChoices (.mk ch l :: r)) = nOthers ch + nOthers (altChoices r) := nOthers_append _ _
    rw [hsum] at hn
    obtain ⟨bs, d, h1, h2, h3⟩ := addChoices_eval hb ch el acc d₀ hc2 (by
      rcases hn with hn | ⟨hn, hd⟩
      · left; omega
      · have : nOthers ch = 0 ∨ nOthers ch = 1 := by omega
        exact this.imp id fun h => ⟨h, hd⟩)
    have hn' : nOthers (altChoices r) = 0 ∨ nOthers (altChoices r) = 1 ∧ d = .null := by
      rcases hn with hn | ⟨hn, hd⟩
      · left; omega
      · rcases h3 with ⟨h3, h4, -⟩ | ⟨h3, -⟩
        · right; exact ⟨by omega, h4.trans hd⟩
        · left; omega
    obtain ⟨bs', d', h4, h5, h6⟩ := alts_eval hA hB r h.2.2 (acc ++ bs) d hn'
    refine ⟨bs ++ bs', d', ?_, ?_, ?_⟩
    · simp only [visitAlts, hc1, bind, Except.bind]
      cases el with
      | nil =>
        simp only [addChoices, Except.ok.injEq, Prod.mk.injEq] at h1
        obtain ⟨h1, rfl⟩ := h1
        have : bs = [] := by simpa using h1
        subst this
        simpa using h4
      | cons e el =>
        simp only [hl1, h1]
        simpa using h4
    · rw [astBranches_append h2 h5]
      simp [evCaseAlts, evAlts]
    · rw [hsum]
      unfold DfltOk at *
      simp only [evCaseAlts, evOthers]
      rcases h3 with ⟨h3, h7, h8⟩ | ⟨h3, v, h7, h8⟩
      · have : ch.any Choice.isOthers = false := by
          cases hh : ch.any Choice.isOthers
          · rfl
          · simp [hh] at h8
        simp only [this, Bool.false_eq_true, if_false]
        rcases h6 with ⟨h6, h9, h10⟩ | ⟨h6, v, h9, h10⟩
        · left; exact ⟨by omega, h9.trans h7, h10⟩
        · right; exact ⟨by omega, v, h9, h10⟩
      · have : ch.any Choice.isOthers = true := by
          cases hh : ch.any Choice.isOthers
          · simp [hh] at h7
          · rfl
        simp only [this, if_true] at h7 ⊢
        rcases h6 with ⟨h6, h9, h10⟩ | ⟨h6, -⟩
        · right; subst h9; exact ⟨by omega, v, h7, h8⟩
        · rcases hn with hn | hn <;> omega
end

end Verif.Vhdl
