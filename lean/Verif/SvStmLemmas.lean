import Verif.SvDeclLemmas
import Verif.Spec.SvStm
/-!
# SystemVerilog statements: the supported fragment, and the induction over the parse tree
-/
namespace Verif.Sv
open Verif Verif.Spec.Sv

/-- What is asked of the interpretation of statements: `forever` is an endless `while`, an absent condition of `for` is a true one,
`a = b` as an expression statement is an assignment, a block of one statement is this statement, and a delayed block is a thread that
waits first. -/
structure SAgrees {V S : Type} (A : Alg V) (B : SAlg V S) : Prop where
  forever : ∀ s, B.while_ (A.flag true) s = B.forever s
  forTrue : ∀ i st b, B.for_ i (some (A.flag true)) st b = B.for_ i none st b
  assign : ∀ d s, B.expr (A.bin "=" d s) = B.assign true d s
  one : ∀ s, B.block .SEQ [s] = s
  delay : ∀ d l, B.thread (B.block .SEQ (B.wait d :: l)) = B.delay d (B.block .SEQ l)

/-! ## The supported fragment -/

mutual
/-- No `edge` and no `iff`. -/
def okEventItem : EventItem → Prop
  | .par l => okEventItems l
  | .ev edge e iff => edge ≠ some .edge ∧ iff = none ∧ okExp e
def okEventItems : List EventItem → Prop
  | [] => True
  | i :: l => okEventItem i ∧ okEventItems l
end

def okEventCtl : EventCtl → Prop
  | .star => True
  | .id h => okHSel h
  | .events l => okEventItems l

def okHierParts : List (Ident × List Exp) → Prop
  | [] => True
  | (i, bits) :: l => okIdent i ∧ okExps bits ∧ okHierParts l

/-- No time literal and no `1step`. -/
def okDelayVal : DelayVal → Prop
  | .num _ => True
  | .time _ => False
  | .step1 => False
  | .real _ => True
  | .ps none i => okIdent i
  | .ps (some none) i => okIdent i
  | .ps (some (some p)) i => okIdent p ∧ okIdent i
  | .hier h => okHierParts h.parts ∧ okIdent h.last

def okDelayCtl : DelayCtl → Prop
  | .mtm m => okMTM m
  | .value v => okDelayVal v

/-- No `repeat (...) @`. -/
def okDelayOrEvent : DelayOrEvent → Prop
  | .delay d => okDelayCtl d
  | .event rep e => rep = none ∧ okEventCtl e

def okOpAssign (a : OpAssign) : Prop := okLVal a.dst ∧ okExp a.src

/-- One expression, no pattern. -/
def okCondPred (c : CondPred) : Prop := c.matches_ = false ∧ c.rest = [] ∧ okExp c.head

def okVarInit : VarInit → Prop
  | .none => True
  | .expr e => okExp e
  | .new => False

/-- A data type that has its width if there are dimensions after the name, or none and no dimensions after the name. -/
def okTypeDims (t : Option DTypeOrImpl) (noDims : Bool) : Prop :=
  match t with
  | none => noDims = true
  | some (.type t) => okDType t ∧ (closedT t = true ∨ noDims = true)
  | some (.impl _) => False

def okVarDecl (t : Option DTypeOrImpl) (v : VarDecl) : Prop :=
  okIdent v.name ∧ okVDims v.dims ∧ okVarInit v.init ∧ okTypeDims t v.dims.isEmpty

def okPValue : Option PExpr → Prop
  | none => True
  | some e => okPExpr e

def okParam (p : ParamAssign) : Prop := okIdent p.name ∧ p.dims = [] ∧ okPValue p.value

/-- Variables, types given by a data type, and local parameters without dimensions after the name. -/
def okBlockDecl : BlockDecl → Prop
  | .data (.vars _ _ t l) => (∀ v ∈ l, okVarDecl t v) ∧ l ≠ []
  | .data (.type (.data t n dims)) => okIdent n ∧ okDType t ∧ okVDims dims ∧ (closedT t = true ∨ dims = [])
  | .data _ => False
  | .localparam (.val t l) => (∀ p ∈ l, okParam p) ∧ okTypeDims t true
  | .localparam _ => False
  | .param _ => False
  | .let_ => False

def okVarAssign (a : LVal × Exp) : Prop := okLVal a.1 ∧ okExp a.2

def okForDecl (d : ForDecl) : Prop := okDType d.type ∧ ∀ x ∈ d.items, okIdent x.1 ∧ okExp x.2

def okForInit : Option ForInit → Prop
  | none => True
  | some (.assigns l) => ∀ a ∈ l, okVarAssign a
  | some (.decls l) => ∀ d ∈ l, okForDecl d

def okMatchItem : MatchItem → Prop
  | .assign a => okOpAssign a
  | .expr e => okExp e

def okOptExp : Option Exp → Prop
  | none => True
  | some e => okExp e

/-- A label is no escaped identifier. -/
def okLabel : Option Ident → Prop
  | none => True
  | some i => i.esc = false ∧ isKw i.text = false

/-- Labels of a block: the end has none if the start has none. -/
def okBlockLabel : Option Ident → Option Ident → Prop
  | none, e => e = none
  | some i, _ => okIdent i

/-- The statement is an `if` with a label. -/
def labelledIf : StmN → Bool
  | .stm (.mk (some _) (.if_ ..)) => true
  | .stm (.mk (some _) (.ifElse ..)) => true
  | _ => false

/-- The statement is a `fork`, or a block with a label. -/
def labelledBlock : StmN → Bool
  | .stm (.mk _ (.par ..)) => true
  | .stm (.mk (some _) (.seq ..)) => true
  | .stm (.mk none (.seq (some _) _ _ _)) => true
  | _ => false

def isDefault : CaseItem → Bool
  | .dflt _ => true
  | .exprs _ _ => false

mutual
/-- Supported statements. Left out: the statements that become `HdlStmNop`; `case ... inside`, `case ... matches`; `unique if`; `&&&` and
`matches` in conditions; what `okEventItem`, `okDelayVal`, `okDelayOrEvent`, `okBlockDecl`, `okLabel` leave out; cycle delays; omitted
variables of `foreach`; an `if` with a label in an `else` branch; `fork` and blocks with a label directly after a delay. -/
def okStm : Stm → Prop
  | .mk label item => okLabel label ∧ okItem item
def okStmN : StmN → Prop
  | .stm s => okStm s
  | .semi => True
def okStmNs : List StmN → Prop
  | [] => True
  | s :: l => okStmN s ∧ okStmNs l
def okItem : StmItem → Prop
  | .blocking dst d src => okLVal dst ∧ okExp src ∧ okDelayOrEvent d
  | .arrayNew _ => False
  | .classNew => False
  | .opAssign a => okOpAssign a
  | .nonblocking dst none src => okLVal dst ∧ okExp src
  | .nonblocking dst (some d) src => okLVal dst ∧ okExp src ∧ okDelayOrEvent d
  | .unsupported _ => False
  | .incDec _ _ l => okLVal l
  | .prim p => okPrim p
  | .caseInside _ _ _ => False
  | .caseMatches _ _ _ _ => False
  | .case _ _ sel items => okExp sel ∧ okCaseItems items ∧ (items.filter isDefault).length ≤ 1
  | .if_ u c t => u = none ∧ okCondPred c ∧ okStmN t
  | .ifElse u c t f => u = none ∧ okCondPred c ∧ okStmN t ∧ okStmN f ∧ labelledIf f = false
  | .voidCall e => okExp e
  | .forever b => okStmN b
  | .repeat_ e b => okExp e ∧ okStmN b
  | .while_ e b => okExp e ∧ okStmN b
  | .doWhile b e => okStmN b ∧ okExp e
  | .for_ init cond step b => okForInit init ∧ okOptExp cond ∧ (∀ i ∈ step, okMatchItem i) ∧ okStmN b
  | .foreach coll vars b => okHSel coll ∧ (∀ v ∈ vars, ∃ i, v = some i ∧ okIdent i) ∧ okStm b
  | .return_ e => okOptExp e
  | .break_ => True
  | .continue_ => True
  | .par label decls l _ endLabel => okBlockLabel label endLabel ∧ (∀ d ∈ decls, okBlockDecl d) ∧ okStmNs l
  | .timing (.delay d) b => okDelayCtl d ∧ okStmN b ∧ labelledBlock b = false
  | .timing (.event e) b => okEventCtl e ∧ okStmN b
  | .timing .cycle _ => False
  | .timing .cycleRange _ => False
  | .seq label decls l endLabel => okBlockLabel label endLabel ∧ (∀ d ∈ decls, okBlockDecl d) ∧ okStmNs l
def okCaseItems : List CaseItem → Prop
  | [] => True
  | .dflt s :: l => okStmN s ∧ okCaseItems l
  | .exprs es s :: l => (∀ e ∈ es, okExp e) ∧ okStmN s ∧ okCaseItems l
end

/-! ## Delays and events -/

variable {V S : Type} {A : Alg V} {B : SAlg V S} {leaf : Expr → V}

theorem astEv_change {e : Expr} {v : V} (h : astEval A leaf e = some v) : astEv A leaf e = some (.change v) := by
  unfold astEv
  split
  · simp [astEval] at h
  · rename_i e'
    simp only [astEval, astEvals] at h
    cases h' : astEval A leaf e' <;> simp [h', opMeaning] at h
  · rename_i e'
    simp only [astEval, astEvals] at h
    cases h' : astEval A leaf e' <;> simp [h', opMeaning] at h
  · rw [h]; rfl

theorem astEvs_append (a b : List Expr) (va vb : List (Ev V)) (ha : astEvs A leaf a = some va) (hb : astEvs A leaf b = some vb) :
    astEvs A leaf (a ++ b) = some (va ++ vb) := by
  induction a generalizing va with
  | nil => simp only [astEvs, Option.some.injEq] at ha; subst ha; exact hb
  | cons e l ih =>
    simp only [astEvs] at ha
    cases he : astEv A leaf e with
    | none => simp [he] at ha
    | some x =>
      cases hl : astEvs A leaf l with
      | none => simp [he, hl] at ha
      | some y =>
        simp only [he, hl, Option.bind_eq_bind, Option.bind_some, pure, Option.some.injEq] at ha
        subst ha
        simp only [List.cons_append, astEvs, he, ih y hl, Option.bind_eq_bind, Option.bind_some, pure]

mutual
theorem eventItem_eval (hA : Agrees A leaf) : ∀ x : EventItem, okEventItem x →
    ∃ l, visitEventItem x = .ok l ∧ astEvs A leaf l = some (evEventItem A x)
  | .par l, h => by
    simp only [okEventItem] at h
    simp only [visitEventItem, evEventItem]
    exact eventItems_eval hA l h
  | .ev edge e iff, h => by
    simp only [okEventItem] at h
    obtain ⟨h1, rfl, h3⟩ := h
    obtain ⟨e', h4, h5⟩ := exp_eval hA e h3
    simp only [visitEventItem, evEventItem, h4, bind, Except.bind, pure, Except.pure]
    refine ⟨_, rfl, ?_⟩
    match edge, h1 with
    | none, _ => simp only [astEvs, astEv_change h5, Option.bind_eq_bind, Option.bind_some, pure]
    | some .posedge, _ => simp only [astEvs, Expr.mkUn, astEv, h5, Option.bind_eq_bind, Option.bind_some, Option.map_some, pure]
    | some .negedge, _ => simp only [astEvs, Expr.mkUn, astEv, h5, Option.bind_eq_bind, Option.bind_some, Option.map_some, pure]
    | some .edge, h => exact absurd rfl h
theorem eventItems_eval (hA : Agrees A leaf) : ∀ x : List EventItem, okEventItems x →
    ∃ l, visitEventItems x = .ok l ∧ astEvs A leaf l = some (evEventItems A x)
  | [], _ => ⟨[], by simp only [visitEventItems], by simp only [astEvs, evEventItems]⟩
  | i :: l, h => by
    simp only [okEventItems] at h
    obtain ⟨a, h1, h2⟩ := eventItem_eval hA i h.1
    obtain ⟨b, h3, h4⟩ := eventItems_eval hA l h.2
    refine ⟨a ++ b, by simp only [visitEventItems, h1, h3, bind, Except.bind, pure, Except.pure], ?_⟩
    rw [astEvs_append a b _ _ h2 h4, evEventItems]
end

theorem eventCtl_eval (hA : Agrees A leaf) (x : EventCtl) (h : okEventCtl x) :
    ∃ l, visitEventCtl x = .ok l ∧ astEvs A leaf l = some (evEventCtl A x) := by
  cases x with
  | star => exact ⟨_, rfl, rfl⟩
  | id s =>
    obtain ⟨e, h1, h2⟩ := hsel_eval hA s h
    refine ⟨[e], by simp only [visitEventCtl, h1, bind, Except.bind, pure, Except.pure], ?_⟩
    simp only [astEvs, astEv_change h2, Option.bind_eq_bind, Option.bind_some, pure, evEventCtl]
  | events l => exact eventItems_eval hA l h

theorem hierParts_eval (hA : Agrees A leaf) : ∀ (x : List (Ident × List Exp)) (_ : okHierParts x) (sel : Expr) (s : Option V),
    evalsTo A leaf sel s → ∃ e, visitHierParts sel x = .ok e ∧ evalsTo A leaf e (evHierParts A s x)
  | [], _, sel, s, hs => ⟨sel, rfl, hs⟩
  | (i, bits) :: l, h, sel, s, hs => by
    obtain ⟨hi, hb, hl⟩ := h
    obtain ⟨ei, h1, h2⟩ := ident_eval hA hi
    have h3 : astEval A leaf (appendExpr sel .DOT ei) = some (dot A s (A.ident i)) := by
      cases s with
      | none => simp only [evalsTo] at hs; subst hs; exact h2
      | some v =>
        simp only [evalsTo] at hs
        rw [astEval_append .DOT hs, astEval_bin hs h2]; rfl
    obtain ⟨eb, h4, h5⟩ := bits_eval hA bits hb _ _ h3
    obtain ⟨e, h6, h7⟩ := hierParts_eval hA l hl eb (some _) h5
    exact ⟨e, by simp only [visitHierParts, h1, h4, bind, Except.bind]; exact h6, h7⟩

theorem hierId_eval (hA : Agrees A leaf) (h : HierId) (hp : okHierParts h.parts) (hl : okIdent h.last) :
    ∃ e, visitHierId h = .ok e ∧ astEval A leaf e = some (evHierId A h) := by
  have h0 : evalsTo A leaf (if h.root then Expr.id none (c! "$root") else .null) (if h.root then some (A.kw (c! "$root")) else none) := by
    cases h.root with
    | true => exact kw_eval hA (by decide +kernel)
    | false => rfl
  obtain ⟨e, h1, h2⟩ := hierParts_eval hA h.parts hp _ _ h0
  obtain ⟨ei, h3, h4⟩ := ident_eval hA hl
  refine ⟨appendExpr e .DOT ei, by simp only [visitHierId, h1, h3, bind, Except.bind, pure, Except.pure], ?_⟩
  unfold evHierId
  generalize evHierParts A (if h.root then some (A.kw (c! "$root")) else none) h.parts = s at h2 ⊢
  cases s with
  | none => simp only [evalsTo] at h2; subst h2; exact h4
  | some v =>
    simp only [evalsTo] at h2
    rw [astEval_append .DOT h2, astEval_bin h2 h4]; rfl

theorem delayVal_eval (hA : Agrees A leaf) (x : DelayVal) (h : okDelayVal x) :
    ∃ e, visitDelayVal x = .ok e ∧ astEval A leaf e = some (evDelayVal A x) := by
  match x, h with
  | .num t, _ =>
    refine ⟨_, rfl, ?_⟩
    simp only [astEval, evDelayVal]
    rw [hA.lit (.integral (.unsigned t)) _ rfl rfl]
  | .real t, _ =>
    refine ⟨_, rfl, ?_⟩
    simp only [astEval, evDelayVal]
    rw [hA.lit (.real t) _ rfl rfl]
  | .ps none i, h =>
    obtain ⟨e, h1, h2⟩ := ident_eval hA h
    exact ⟨e, by simp only [visitDelayVal, visitPsIdent, h1, bind, Except.bind, pure, Except.pure], h2⟩
  | .ps (some none) i, h =>
    obtain ⟨e, h1, h2⟩ := ident_eval hA h
    refine ⟨_, by simp only [visitDelayVal, visitPsIdent, visitPkgScope, h1, bind, Except.bind, pure, Except.pure]; rfl, ?_⟩
    rw [astEval_bin (kw_eval hA (s := c! "$unit") (by decide +kernel)) h2]; rfl
  | .ps (some (some p)) i, h =>
    obtain ⟨ep, h3, h4⟩ := ident_eval hA h.1
    obtain ⟨e, h1, h2⟩ := ident_eval hA h.2
    refine ⟨_, by simp only [visitDelayVal, visitPsIdent, visitPkgScope, h1, h3, bind, Except.bind, pure, Except.pure]; rfl, ?_⟩
    rw [astEval_bin h4 h2]; rfl
  | .hier h, hh => exact hierId_eval hA h hh.1 hh.2

theorem delayCtl_eval (hA : Agrees A leaf) (x : DelayCtl) (h : okDelayCtl x) :
    ∃ e, visitDelayCtl x = .ok e ∧ astEval A leaf e = some (evDelayCtl A x) := by
  cases x with
  | mtm m => exact mtm_eval hA m h
  | value v => exact delayVal_eval hA v h

theorem astOpt_some {e : Expr} {v : V} (h : astEval A leaf e = some v) : astOpt A leaf e = some (some v) := by
  cases e <;> first | (simp [astEval] at h; done) | (simp only [astOpt, h, Option.map_some])

theorem mkAssign_eq {d s : Expr} {vd vs : V} (hd : astEval A leaf d = some vd) (hs : astEval A leaf s = some vs) (dl : Expr)
    (ev : Option (List Expr)) (b : Bool) : mkAssign d s dl ev b = .ok (.assign {} d s dl ev b) := by
  have h1 := ne_null hd
  have h2 := ne_null hs
  cases d <;> first | (exact absurd rfl h1) | (cases s <;> first | (exact absurd rfl h2) | rfl)

theorem withInfo_nil (s : Option S) : withInfo B leaf {} s = s := by
  cases s <;> simp [withInfo]

theorem assign_eval {d s : Expr} {vd vs : V} (hd : astEval A leaf d = some vd) (hs : astEval A leaf s = some vs) (b : Bool) :
    astStm A B leaf (.assign {} d s .null none b) = some (B.assign b vd vs) := by
  simp only [astStm, withInfo_nil, astAssign, hd, hs, astOpt, Option.bind_eq_bind, Option.bind_some, pure]

theorem timedAssign_eval (hA : Agrees A leaf) {d s : Expr} {vd vs : V} (hd : astEval A leaf d = some vd)
    (hs : astEval A leaf s = some vs) (x : DelayOrEvent) (h : okDelayOrEvent x) (b : Bool) :
    ∃ dl ev, visitDelayOrEvent x = .ok (dl, ev) ∧ mkAssign d s dl ev b = .ok (.assign {} d s dl ev b) ∧
      astStm A B leaf (.assign {} d s dl ev b) = some (evTimedAssign A B b vd vs x) := by
  cases x with
  | delay t =>
    obtain ⟨e, h1, h2⟩ := delayCtl_eval hA t h
    refine ⟨e, none, by simp only [visitDelayOrEvent, h1, bind, Except.bind, pure, Except.pure], mkAssign_eq hd hs _ _ _, ?_⟩
    simp only [astStm, withInfo_nil, astAssign, hd, hs, astOpt_some h2, Option.bind_eq_bind, Option.bind_some, pure, evTimedAssign]
  | event rep t =>
    obtain ⟨rfl, h⟩ := h
    obtain ⟨e, h1, h2⟩ := eventCtl_eval hA t h
    refine ⟨.null, some e, by simp only [visitDelayOrEvent, h1, bind, Except.bind, pure, Except.pure], mkAssign_eq hd hs _ _ _, ?_⟩
    simp only [astStm, withInfo_nil, astAssign, hd, hs, astOpt, h2, Option.bind_eq_bind, Option.bind_some, pure, evTimedAssign]

theorem opAssign_eval (hA : Agrees A leaf) (hB : SAgrees A B) (a : OpAssign) (h : okOpAssign a) :
    ∃ e, visitOpAssign a = .ok e ∧ astStm A B leaf (.expr {} e) = some (evOpAssign A B a) := by
  obtain ⟨d, h1, h2⟩ := lval_eval hA a.dst h.1
  obtain ⟨s, h3, h4⟩ := exp_eval hA a.src h.2
  refine ⟨.mkBin none d a.op.toOp s, by simp only [visitOpAssign, h1, h3, bind, Except.bind, pure, Except.pure], ?_⟩
  simp only [astStm, withInfo_nil, astEval_bin h2 h4, evOpAssign]
  obtain ⟨_, op, _⟩ := a
  cases op <;> simp [AssignOp.toOp, opMeaning, AssignOp.sym, hB.assign]

/-! ## Declarations -/

theorem astType_some {e : Expr} {v : V} (h : astEval A leaf e = some v) : astType A B leaf e = some v := by
  unfold astType
  split
  · simp [astEval] at h
  · simp [astEval] at h
  · exact h

theorem ident_leaf (hA : Agrees A leaf) {i : Ident} (h : okIdent i) : ∃ s, identStr i = .ok s ∧ leaf (.id none s) = A.ident i := by
  obtain ⟨s, h1, h2⟩ := h
  exact ⟨s, h1, hA.ident i s h1 h2⟩

theorem type_eval (hA : Agrees A leaf) (t : Option DTypeOrImpl) (b : Bool) (h : okTypeDims t b) :
    ∃ e, visitDTypeOrImpl .null t = .ok e ∧ e.clone = .ok e ∧ astType A B leaf e = some (evType A B t) ∧
      (b = false → isOpenWire e = false ∧ astEval A leaf e = some (evType A B t)) := by
  match t, h with
  | none, h => exact ⟨_, rfl, rfl, rfl, fun hb => by simp [okTypeDims, hb] at h⟩
  | some (.type t), h =>
    obtain ⟨e, h1, h2⟩ := dtype_eval hA t h.1
    refine ⟨e, h1, clone_of_eval e _ (plain_dtype t e h1) h2, astType_some h2, fun hb => ⟨?_, h2⟩⟩
    rcases h.2 with h | h
    · exact closed_dtype t e h h1
    · simp [hb] at h

theorem varInit_eval (hA : Agrees A leaf) (x : VarInit) (h : okVarInit x) :
    ∃ e, visitVarInit x = .ok e ∧ astOpt A leaf e = some (evVarInit A x) := by
  match x, h with
  | .none, _ => exact ⟨_, rfl, rfl⟩
  | .expr e, h =>
    obtain ⟨e', h1, h2⟩ := exp_eval hA e h
    exact ⟨e', h1, astOpt_some h2⟩

/-- The dimensions of one name. -/
theorem nameDims_eval (hA : Agrees A leaf) (t : Option DTypeOrImpl) (dims : List VDim) (h : okTypeDims t dims.isEmpty) (hd : okVDims dims) :
    ∃ e ty, visitDTypeOrImpl .null t = .ok e ∧ e.clone = .ok e ∧ applyVDims e dims = .ok ty ∧
      astType A B leaf ty = some (evVDims A (evType A B t) dims) := by
  obtain ⟨e, h1, h2, h3, h4⟩ := type_eval (B := B) hA t _ h
  cases dims with
  | nil => exact ⟨e, e, h1, h2, by simp only [applyVDims, visitVDims], by simpa only [evVDims] using h3⟩
  | cons d l =>
    obtain ⟨h5, h6⟩ := h4 rfl
    obtain ⟨ty, h7, h8⟩ := vdims_eval hA (d :: l) hd e _ h6
    exact ⟨e, ty, h1, h2, by rw [applyVDims, h5, h7], astType_some h8⟩

theorem varDecls_eval (hA : Agrees A leaf) (const : Bool) (life : Option Lifetime) (t : Option DTypeOrImpl) (e : Expr)
    (ht : visitDTypeOrImpl .null t = .ok e) (l : List VarDecl) (h : ∀ v ∈ l, okVarDecl t v) :
    ∃ r, visitVarDecls e l = .ok r ∧
      astStms A B leaf (r.map fun d => .id { d with const := const, static := visitLifetime life }) =
        some (l.map (evVarDecl A B const life (evType A B t))) := by
  induction l with
  | nil => exact ⟨[], rfl, rfl⟩
  | cons v l ih =>
    obtain ⟨r, h1, h2⟩ := ih fun x hx => h x (.tail _ hx)
    obtain ⟨hn, hd, hi, hc⟩ := h v (.head _)
    obtain ⟨e', ty, h3, h4, h5, h6⟩ := nameDims_eval (B := B) hA t v.dims hc hd
    rw [ht] at h3
    obtain rfl := Except.ok.inj h3
    obtain ⟨n, h7, h8⟩ := ident_leaf hA hn
    obtain ⟨i, h9, h10⟩ := varInit_eval hA v.init hi
    refine ⟨_, by simp only [visitVarDecls, h7, h4, h5, h9, h1, bind, Except.bind, pure, Except.pure]; rfl, ?_⟩
    simp only [List.map_cons, astStms, astStm, astDecl, h6, h10, h8, h2, Option.bind_eq_bind, Option.bind_some, pure, evVarDecl]
    cases life with
    | none => rfl
    | some x => cases x <;> rfl

theorem paramAssign_eval (hA : Agrees A leaf) (p : ParamAssign) (h : okParam p) :
    ∃ n e, visitParamAssign p = .ok { name := n, type := .symb none .T_AUTO, value := e } ∧ leaf (.id none n) = A.ident p.name ∧
      astOpt A leaf e = some (p.value.map (evPExpr A)) := by
  obtain ⟨n, h1, h2⟩ := ident_leaf hA h.1
  obtain ⟨name, dims, value⟩ := p
  have hv := h.2.2
  cases value with
  | none => exact ⟨n, .null, by simp only [visitParamAssign, h1, bind, Except.bind, pure, Except.pure], h2, rfl⟩
  | some e =>
    obtain ⟨e', h3, h4⟩ := pexpr_eval hA e hv
    exact ⟨n, e', by simp only [visitParamAssign, h1, h3, bind, Except.bind, pure, Except.pure], h2, astOpt_some h4⟩

theorem paramAssigns_eval (hA : Agrees A leaf) (e : Expr) (v : V) (he : astType A B leaf e = some v) (l : List ParamAssign)
    (h : ∀ p ∈ l, okParam p) :
    ∃ r, visitParamAssigns l = .ok r ∧ astStms A B leaf (r.map fun d => .id { d with type := e, const := true }) =
      some (l.map (evParam A B v)) := by
  induction l with
  | nil => exact ⟨[], rfl, rfl⟩
  | cons p l ih =>
    obtain ⟨r, h1, h2⟩ := ih fun x hx => h x (.tail _ hx)
    obtain ⟨n, i, h3, h4, h6⟩ := paramAssign_eval hA p (h p (.head _))
    have hd := (h p (.head _)).2.1
    refine ⟨_, by simp only [visitParamAssigns, h3, h1, bind, Except.bind, pure, Except.pure]; rfl, ?_⟩
    simp only [List.map_cons, astStms, astStm, astDecl, he, h6, h4, h2, Option.bind_eq_bind, Option.bind_some, pure, evParam, hd, evDims]

theorem setTypesRest_eq (e : Expr) (hc : e.clone = .ok e) (l : List IdDef) : setTypesRest e l = .ok (l.map fun d => { d with type := e }) := by
  induction l with
  | nil => rfl
  | cons d l ih => simp only [setTypesRest, hc, ih, bind, Except.bind, pure, Except.pure, List.map_cons]

theorem visitTypedParams_eq (e : Expr) (hc : e.clone = .ok e) (l : List ParamAssign) (r : List IdDef) (h : visitParamAssigns l = .ok r) :
    visitTypedParams e l = .ok (r.map fun d => { d with type := e }) := by
  cases r with
  | nil => simp only [visitTypedParams, h, bind, Except.bind, pure, Except.pure, List.map_nil]
  | cons d r => simp only [visitTypedParams, h, setTypesRest_eq e hc, bind, Except.bind, pure, Except.pure, List.map_cons]

theorem blockDecl_eval (hA : Agrees A leaf) (x : BlockDecl) (h : okBlockDecl x) :
    ∃ r, visitBlockDecl x = .ok r ∧ astStms A B leaf r = some (evBlockDecl A B x) := by
  match x, h with
  | .data (.vars const life t l), h =>
    have hne : ∃ v, v ∈ l := by
      cases l with
      | nil => exact absurd rfl h.2
      | cons v l => exact ⟨v, .head _⟩
    obtain ⟨v, hv⟩ := hne
    obtain ⟨_, _, _, hc⟩ := h.1 v hv
    obtain ⟨e, h1, _⟩ := type_eval (B := B) hA t _ hc
    obtain ⟨r, h2, h3⟩ := varDecls_eval (B := B) hA const life t e h1 l h.1
    exact ⟨_, by simp only [visitBlockDecl, visitDataDecl, h1, h2, bind, Except.bind, pure, Except.pure], h3⟩
  | .data (.type (.data t n dims)), h =>
    obtain ⟨hn, ht, hd, hc⟩ := h
    obtain ⟨s, h1, h2⟩ := ident_leaf hA hn
    obtain ⟨e, ty, h3, _, h5, h6⟩ := nameDims_eval (B := B) hA (some (.type t)) dims ⟨ht, by
      rcases hc with h | h
      · exact .inl h
      · exact .inr (by rw [h]; rfl)⟩ hd
    obtain ⟨e0, h7, h8⟩ := dtype_eval hA t ht
    have h9 : astEval A leaf ty = some (evVDims A (evDType A t) dims) := by
      have h3' : e = e0 := by
        simp only [visitDTypeOrImpl, h7] at h3
        exact (Except.ok.inj h3).symm
      subst h3'
      cases dims with
      | nil =>
        simp only [applyVDims, visitVDims, Except.ok.injEq] at h5
        subst h5
        simpa only [evVDims] using h8
      | cons d l =>
        have hcl : closedT t = true := by
          rcases hc with h | h
          · exact h
          · cases h
        obtain ⟨ty', h10, h11⟩ := vdims_eval hA (d :: l) hd e _ h8
        rw [applyVDims, closed_dtype t e hcl h7, h10] at h5
        obtain rfl := Except.ok.inj h5
        exact h11
    refine ⟨[.id { name := s, type := .symb none .T, value := ty }], ?_, ?_⟩
    · simp only [visitDTypeOrImpl] at h3
      simp only [visitBlockDecl, visitDataDecl, visitTypeDecl, h3, h5, h1, bind, Except.bind, pure, Except.pure]
    · simp only [astStms, astStm, astDecl, astType, astOpt_some h9, h2, Option.bind_eq_bind, Option.bind_some, pure, evBlockDecl, evDataDecl,
        evTypeDecl]
  | .localparam (.val t l), h =>
    obtain ⟨e, h1, h2, h3, _⟩ := type_eval (B := B) hA t true h.2
    obtain ⟨r, h4, h5⟩ := paramAssigns_eval (B := B) hA e _ h3 l h.1
    refine ⟨_, by
      simp only [visitBlockDecl, visitLocalparam, visitParamDecl, h1, visitTypedParams_eq e h2 l r h4, bind, Except.bind, pure, Except.pure]
      rfl, ?_⟩
    rw [List.map_map, List.map_map]
    exact h5

theorem astStms_append (a b : List Obj) (va vb : List S) (ha : astStms A B leaf a = some va) (hb : astStms A B leaf b = some vb) :
    astStms A B leaf (a ++ b) = some (va ++ vb) := by
  induction a generalizing va with
  | nil => simp only [astStms, Option.some.injEq] at ha; subst ha; exact hb
  | cons e l ih =>
    simp only [astStms] at ha
    cases he : astStm A B leaf e with
    | none => simp [he] at ha
    | some x =>
      cases hl : astStms A B leaf l with
      | none => simp [he, hl] at ha
      | some y =>
        simp only [he, hl, Option.bind_eq_bind, Option.bind_some, pure, Option.some.injEq] at ha
        subst ha
        simp only [List.cons_append, astStms, he, ih y hl, Option.bind_eq_bind, Option.bind_some, pure]

theorem blockDecls_eval (hA : Agrees A leaf) (l : List BlockDecl) (h : ∀ d ∈ l, okBlockDecl d) :
    ∃ r, visitBlockDecls l = .ok r ∧ astStms A B leaf r = some (l.flatMap (evBlockDecl A B)) := by
  induction l with
  | nil => exact ⟨[], rfl, rfl⟩
  | cons d l ih =>
    obtain ⟨r, h1, h2⟩ := ih fun x hx => h x (.tail _ hx)
    obtain ⟨r', h3, h4⟩ := blockDecl_eval (B := B) hA d (h d (.head _))
    refine ⟨r' ++ r, by simp only [visitBlockDecls, h3, h1, bind, Except.bind, pure, Except.pure], ?_⟩
    rw [astStms_append r' r _ _ h4 h2, List.flatMap_cons]

/-! ## `for` and `foreach` -/

theorem varAssigns_eval (hA : Agrees A leaf) (l : List (LVal × Exp)) (h : ∀ a ∈ l, okVarAssign a) (b : Bool) :
    ∃ r, visitVarAssigns b l = .ok r ∧ astStms A B leaf r = some (l.map fun a => B.assign b (evLVal A a.1) (evExp A a.2)) := by
  induction l with
  | nil => exact ⟨[], rfl, rfl⟩
  | cons a l ih =>
    obtain ⟨r, h1, h2⟩ := ih fun x hx => h x (.tail _ hx)
    obtain ⟨d, h3, h4⟩ := lval_eval hA a.1 (h a (.head _)).1
    obtain ⟨s, h5, h6⟩ := exp_eval hA a.2 (h a (.head _)).2
    refine ⟨.assign {} d s .null none b :: r, ?_, ?_⟩
    · simp only [visitVarAssigns, visitVarAssign, h3, h5, mkAssign_eq h4 h6, h1, bind, Except.bind, pure, Except.pure]
    · simp only [astStms, assign_eval h4 h6, h2, Option.bind_eq_bind, Option.bind_some, pure, List.map_cons]

theorem forVars_eval (hA : Agrees A leaf) (var : Bool) (t : Expr) (vt : V) (hc : t.clone = .ok t) (ht : astType A B leaf t = some vt)
    (l : List (Ident × Exp)) (h : ∀ x ∈ l, okIdent x.1 ∧ okExp x.2) :
    ∃ r, visitForVars t var l = .ok r ∧ astStms A B leaf r =
      some (l.map fun x => B.decl ⟨false, false, var⟩ (A.ident x.1) vt (some (evExp A x.2))) := by
  induction l with
  | nil => exact ⟨[], rfl, rfl⟩
  | cons a l ih =>
    obtain ⟨r, h1, h2⟩ := ih fun x hx => h x (.tail _ hx)
    obtain ⟨n, h3, h4⟩ := ident_leaf hA (h a (.head _)).1
    obtain ⟨s, h5, h6⟩ := exp_eval hA a.2 (h a (.head _)).2
    refine ⟨_, by simp only [visitForVars, h3, hc, h5, h1, bind, Except.bind, pure, Except.pure]; rfl, ?_⟩
    simp only [astStms, astStm, astDecl, ht, astOpt_some h6, h4, h2, Option.bind_eq_bind, Option.bind_some, pure, List.map_cons]

theorem forDecl_eval (hA : Agrees A leaf) (d : ForDecl) (h : okForDecl d) :
    ∃ r, visitForDecl d = .ok r ∧ astStms A B leaf r = some (evForDecl A B d) := by
  obtain ⟨t, h1, h2⟩ := dtype_eval hA d.type h.1
  obtain ⟨var, ty, items⟩ := d
  cases items with
  | nil => exact ⟨[], by simp only [visitForDecl, h1, bind, Except.bind, pure, Except.pure], rfl⟩
  | cons a l =>
    obtain ⟨r, h3, h4⟩ := forVars_eval (B := B) hA var t _ (clone_of_eval t _ (plain_dtype _ t h1) h2) (astType_some h2) l
      fun x hx => h.2 x (.tail _ hx)
    obtain ⟨n, h5, h6⟩ := ident_leaf hA (h.2 a (.head _)).1
    obtain ⟨s, h7, h8⟩ := exp_eval hA a.2 (h.2 a (.head _)).2
    refine ⟨_, by simp only [visitForDecl, h1, h5, h7, h3, bind, Except.bind, pure, Except.pure]; rfl, ?_⟩
    simp only [astStms, astStm, astDecl, astType_some h2, astOpt_some h8, h6, h4, Option.bind_eq_bind, Option.bind_some, pure, evForDecl,
      List.map_cons]

theorem forDecls_eval (hA : Agrees A leaf) (l : List ForDecl) (h : ∀ d ∈ l, okForDecl d) :
    ∃ r, visitForDecls l = .ok r ∧ astStms A B leaf r = some (l.flatMap (evForDecl A B)) := by
  induction l with
  | nil => exact ⟨[], rfl, rfl⟩
  | cons d l ih =>
    obtain ⟨r, h1, h2⟩ := ih fun x hx => h x (.tail _ hx)
    obtain ⟨r', h3, h4⟩ := forDecl_eval (B := B) hA d (h d (.head _))
    refine ⟨r' ++ r, by simp only [visitForDecls, h3, h1, bind, Except.bind, pure, Except.pure], ?_⟩
    rw [astStms_append r' r _ _ h4 h2, List.flatMap_cons]

theorem forInit_eval (hA : Agrees A leaf) (x : Option ForInit) (h : okForInit x) :
    ∃ r, visitForInit x = .ok r ∧ astStms A B leaf r = some (evForInit A B x) := by
  match x, h with
  | none, _ => exact ⟨[], rfl, rfl⟩
  | some (.assigns l), h => exact varAssigns_eval hA l h true
  | some (.decls l), h => exact forDecls_eval hA l h

theorem forStep_eval (hA : Agrees A leaf) (hB : SAgrees A B) (l : List MatchItem) (h : ∀ i ∈ l, okMatchItem i) :
    ∃ r, visitForStep l = .ok r ∧ astStms A B leaf r = some (l.map (evMatchItem A B)) := by
  induction l with
  | nil => exact ⟨[], rfl, rfl⟩
  | cons i l ih =>
    obtain ⟨r, h1, h2⟩ := ih fun x hx => h x (.tail _ hx)
    have hi := h i (.head _)
    cases i with
    | assign a =>
      obtain ⟨e, h3, h4⟩ := opAssign_eval hA hB a hi
      refine ⟨.expr {} e :: r, by simp only [visitForStep, visitMatchItem, h3, h1, bind, Except.bind, pure, Except.pure], ?_⟩
      simp only [astStms, h4, h2, Option.bind_eq_bind, Option.bind_some, pure, List.map_cons, evMatchItem]
    | expr e =>
      obtain ⟨e', h3, h4⟩ := exp_eval hA e hi
      refine ⟨.expr {} e' :: r, by simp only [visitForStep, visitMatchItem, h3, h1, bind, Except.bind, pure, Except.pure], ?_⟩
      simp only [astStms, astStm, withInfo_nil, h4, Option.map_some, h2, Option.bind_eq_bind, Option.bind_some, pure, List.map_cons,
        evMatchItem]

theorem loopVars_eval (hA : Agrees A leaf) (l : List (Option Ident)) (h : ∀ v ∈ l, ∃ i, v = some i ∧ okIdent i) :
    ∃ r, visitLoopVars l = .ok r ∧ astVars A leaf r = some (l.map fun v => v.map A.ident) := by
  induction l with
  | nil => exact ⟨[], rfl, rfl⟩
  | cons v l ih =>
    obtain ⟨r, h1, h2⟩ := ih fun x hx => h x (.tail _ hx)
    obtain ⟨i, rfl, hi⟩ := h v (.head _)
    obtain ⟨e, h3, h4⟩ := ident_eval hA hi
    refine ⟨.expr {} e :: r, by simp only [visitLoopVars, h3, h1, bind, Except.bind, pure, Except.pure], ?_⟩
    simp only [astVars, h4, h2, Option.bind_eq_bind, Option.bind_some, pure, List.map_cons, Option.map_some]

/-! ## Shape of the results -/

def isIfItem : StmItem → Bool
  | .if_ .. => true
  | .ifElse .. => true
  | _ => false

/-- A block that is not labelled. -/
def isPlainSeq : StmItem → Bool
  | .seq none _ _ _ => true
  | _ => false

def isFork : StmItem → Bool
  | .par .. => true
  | _ => false

def isBlockItem : StmItem → Bool
  | .seq .. => true
  | .par .. => true
  | _ => false

/-- The result is a statement; it is an `if` or a block only if the source is one. -/
def shape (x : StmItem) (o : Obj) : Prop :=
  o.info?.isSome = true ∧
  (∀ i c t el f, o = .if_ i c t el f → i = {} ∧ isIfItem x = true) ∧
  (∀ i j l, o = .block i j l → isBlockItem x = true ∧ (isPlainSeq x = true → i = {} ∧ j = .SEQ) ∧ (isFork x = false → j = .SEQ))

theorem shape_of {x : StmItem} {o : Obj} (h : o.info?.isSome = true) (h1 : ∀ i c t el f, o ≠ .if_ i c t el f)
    (h2 : ∀ i j l, o ≠ .block i j l) : shape x o :=
  ⟨h, fun i c t el f e => absurd e (h1 i c t el f), fun i j l e => absurd e (h2 i j l)⟩

theorem withInfo_label {i : StmInfo} {s : Option S} {v : S} {n : Str} (h : withInfo B leaf i s = some v) :
    withInfo B leaf { i with labels := n :: i.labels } s = some (B.label (leaf (.id none n)) v) := by
  unfold withInfo at h ⊢
  split at h
  · cases h
  · rename_i hp
    simp only [hp]
    cases s with
    | none => cases h
    | some s =>
      simp only [Option.map_some, Option.some.injEq] at h
      subst h
      rfl

theorem astStm_label (o : Obj) (n : Str) (v : S) (hi : o.info?.isSome = true) (h : astStm A B leaf o = some v) :
    astStm A B leaf (o.mapInfo fun j => { j with labels := n :: j.labels }) = some (B.label (leaf (.id none n)) v) := by
  unfold astStm at h
  split at h
  all_goals first
    | (simp [Obj.info?] at hi; done)
    | (cases h)
    | (simp only [Obj.mapInfo, astStm]; exact withInfo_label h)

theorem mapInfo_if {o : Obj} {g : StmInfo → StmInfo} {i : StmInfo} {c : Expr} {t f : Obj} {el : List Branch}
    (h : o.mapInfo g = .if_ i c t el f) : ∃ i', o = .if_ i' c t el f := by
  cases o <;> simp only [Obj.mapInfo, Obj.if_.injEq, reduceCtorEq] at h
  obtain ⟨_, rfl, rfl, rfl, rfl⟩ := h
  exact ⟨_, rfl⟩

theorem mapInfo_block {o : Obj} {g : StmInfo → StmInfo} {i : StmInfo} {j : Join} {l : List Obj}
    (h : o.mapInfo g = .block i j l) : ∃ i', o = .block i' j l := by
  cases o <;> simp only [Obj.mapInfo, Obj.block.injEq, reduceCtorEq] at h
  obtain ⟨_, rfl, rfl⟩ := h
  exact ⟨_, rfl⟩

/-- The statement is a `fork`. -/
def isForkN : StmN → Bool
  | .stm (.mk _ item) => isFork item
  | .semi => false

/-- What is known of the conversion of a statement. -/
def shapeN (x : StmN) (o : Obj) : Prop :=
  o.info?.isSome = true ∧
  (labelledIf x = false → ∀ i c t el f, o = .if_ i c t el f → i = {}) ∧
  (labelledBlock x = false → ∀ i j l, o = .block i j l → i = {} ∧ j = .SEQ) ∧
  (isForkN x = false → ∀ i j l, o = .block i j l → j = .SEQ)

theorem collapse_eval {c : Expr} {t f : Obj} {vc : V} {vt vf : S} (hc : astEval A leaf c = some vc) (ht : astStm A B leaf t = some vt)
    (hf : astStm A B leaf f = some vf) (hi : ∀ i c t el f', f = .if_ i c t el f' → i = {}) :
    ∃ o, collapseElifs {} c t f = .ok o ∧ astStm A B leaf o = some (B.ite vc vt (some vf)) ∧ ∃ el f', o = .if_ {} c t el f' := by
  unfold collapseElifs
  split
  · rename_i j c' t' el f'
    obtain rfl := hi _ _ _ _ _ rfl
    refine ⟨_, by simp only [if_true]; rfl, ?_, _, _, rfl⟩
    simp only [astStm, withInfo_nil, Option.bind_eq_bind] at hf ⊢
    cases h1 : astEval A leaf c' with
    | none => simp [h1] at hf
    | some vc' =>
      cases h2 : astStm A B leaf t' with
      | none => simp [h1, h2] at hf
      | some vt' =>
        cases h3 : optStm f' (astStm A B leaf f') with
        | none => simp [h1, h2, h3] at hf
        | some vf' =>
          cases h4 : astElifs A B leaf el vf' with
          | none => simp [h1, h2, h3, h4] at hf
          | some ve =>
            simp only [h1, h2, h3, h4, Option.bind_some, pure, Option.some.injEq] at hf
            simp only [hc, ht, h1, h2, h4, astElifs, Option.bind_eq_bind, Option.bind_some, pure, hf]
  · refine ⟨_, rfl, ?_, _, _, rfl⟩
    have hn : optStm f (astStm A B leaf f) = some (some vf) := by
      cases f <;> first | (simp [astStm] at hf; done) | (simp only [optStm, hf, Option.map_some])
    simp only [astStm, withInfo_nil, hc, ht, hn, astElifs, Option.bind_eq_bind, Option.bind_some, pure]

theorem mkTimed_eval (hB : SAgrees A B) {d : Expr} {b : Obj} {vd : V} {vb : S} (hd : astEval A leaf d = some vd)
    (hb : astStm A B leaf b = some vb) (hi : ∀ i j l, b = .block i j l → i = {} ∧ j = .SEQ) :
    ∃ b', mkTimed d none b = .ok (.process {} .NONE none b') ∧ astStm A B leaf (.process {} .NONE none b') = some (B.delay vd vb) := by
  have h1 : mkTimed d none b = .ok (.process {} .NONE none (inBlock (fun l => .wait {} [d] :: l) b)) := by
    have := ne_null hd
    cases d <;> first | (exact absurd rfl this) | rfl
  refine ⟨_, h1, ?_⟩
  unfold inBlock
  split
  · obtain ⟨rfl, rfl⟩ := hi _ _ _ rfl
    rename_i l
    simp only [astStm, withInfo_nil] at hb
    cases hl : astStms A B leaf l with
    | none => simp [hl] at hb
    | some vl =>
      simp only [hl, Option.map_some, Option.some.injEq] at hb
      subst hb
      simp only [astStm, withInfo_nil, astStms, hd, hl, Option.map_some, Option.bind_eq_bind, Option.bind_some, pure, hB.delay]
  · simp only [astStm, withInfo_nil, astStms, hd, hb, Option.map_some, Option.bind_eq_bind, Option.bind_some, pure, hB.delay, hB.one]

theorem blockLabels_eval (hA : Agrees A leaf) (label endLabel : Option Ident) (h : okBlockLabel label endLabel) (s : S) :
    ∃ ls, blockLabels label endLabel = .ok ls ∧ ls.foldr (fun n s => B.label (leaf (.id none n)) s) s = optLabel A B label s ∧
      (label = none → ls = []) := by
  cases label with
  | none =>
    simp only [okBlockLabel] at h
    subst h
    exact ⟨[], rfl, rfl, fun _ => rfl⟩
  | some i =>
    obtain ⟨n, h1, h2⟩ := ident_leaf hA h
    refine ⟨[n], by simp only [blockLabels, h1, bind, Except.bind, pure, Except.pure], ?_, fun h => by cases h⟩
    simp only [List.foldr, h2, optLabel]

/-! ## Branches of `case` -/

/-- No branch is a `default`. -/
def noDefault (l : List Branch) : Prop := ∀ e o, Branch.mk e o ∈ l → e ≠ .null

theorem splitCases_append (msg : Str) (d : Obj) (a b : List Branch) (h : noDefault a) (bs : List Branch) (d' : Obj)
    (hb : splitCases msg d b = .ok (bs, d')) : splitCases msg d (a ++ b) = .ok (a ++ bs, d') := by
  induction a with
  | nil => exact hb
  | cons x a ih =>
    obtain ⟨e, o⟩ := x
    have h1 := ih fun e o hm => h e o (.tail _ hm)
    have h2 := h e o (.head _)
    rw [List.cons_append, splitCases]
    · simp only [h1, bind, Except.bind, pure, Except.pure, List.cons_append]
    · rintro _ h3
      injection h3 with h3
      exact h2 h3

theorem astBranches_append (a b : List Branch) (va vb : List (V × S)) (ha : astBranches A B leaf a = some va)
    (hb : astBranches A B leaf b = some vb) : astBranches A B leaf (a ++ b) = some (va ++ vb) := by
  induction a generalizing va with
  | nil => simp only [astBranches, Option.some.injEq] at ha; subst ha; exact hb
  | cons x l ih =>
    obtain ⟨e, o⟩ := x
    simp only [astBranches] at ha
    cases he : astEval A leaf e with
    | none => simp [he] at ha
    | some x =>
      cases ho : astStm A B leaf o with
      | none => simp [he, ho] at ha
      | some z =>
        cases hl : astBranches A B leaf l with
        | none => simp [he, ho, hl] at ha
        | some y =>
          simp only [he, ho, hl, Option.bind_eq_bind, Option.bind_some, pure, Option.some.injEq] at ha
          subst ha
          simp only [List.cons_append, astBranches, he, ho, ih y hl, Option.bind_eq_bind, Option.bind_some, pure]

theorem caseExprs_eval (hA : Agrees A leaf) (s : Obj) (vs : S) (hs : astStm A B leaf s = some vs) (es : List Exp) (h : ∀ e ∈ es, okExp e) :
    ∃ bs, visitCaseExprs s es = .ok bs ∧ astBranches A B leaf bs = some (es.map fun e => (evExp A e, vs)) ∧ noDefault bs := by
  induction es with
  | nil => exact ⟨[], rfl, rfl, fun _ _ h => by cases h⟩
  | cons e es ih =>
    obtain ⟨bs, h1, h2, h3⟩ := ih fun x hx => h x (.tail _ hx)
    obtain ⟨e', h4, h5⟩ := exp_eval hA e (h e (.head _))
    refine ⟨.mk e' s :: bs, by simp only [visitCaseExprs, h4, h1, bind, Except.bind, pure, Except.pure], ?_, ?_⟩
    · simp only [astBranches, h5, hs, h2, Option.bind_eq_bind, Option.bind_some, pure, List.map_cons]
    · intro x o hm
      cases hm with
      | head => exact ne_null h5
      | tail _ hm => exact h3 x o hm

/-! ## The induction -/

theorem condPred_eval (hA : Agrees A leaf) (c : CondPred) (h : okCondPred c) :
    ∃ e, visitCondPred c = .ok e ∧ astEval A leaf e = some (evCondPred A c) := by
  obtain ⟨hd, m, r⟩ := c
  obtain ⟨h1, h2, h3⟩ := h
  simp only at h1 h2
  subst h1 h2
  exact exp_eval hA hd h3

theorem exprStm_eval {e : Expr} {v : V} (h : astEval A leaf e = some v) : astStm A B leaf (.expr {} e) = some (B.expr v) := by
  simp only [astStm, withInfo_nil, h, Option.map_some]

theorem forCond_eval (hA : Agrees A leaf) (hB : SAgrees A B) (x : Option Exp) (h : okOptExp x) :
    ∃ e v, visitForCond x = .ok e ∧ astEval A leaf e = some v ∧ ∀ i st b, B.for_ i (some v) st b = B.for_ i (x.map (evExp A)) st b := by
  cases x with
  | none => exact ⟨_, _, rfl, by simp only [oneE, astEval, hA.signed], fun i st b => hB.forTrue i st b⟩
  | some e =>
    obtain ⟨e', h1, h2⟩ := exp_eval hA e h
    exact ⟨e', _, h1, h2, fun _ _ _ => rfl⟩

/-- A statement item that is neither `if` nor block. -/
theorem simple {x : StmItem} {o : Obj} {v : S} (h1 : visitStmItem x = .ok o) (h2 : astStm A B leaf o = some v) (h : o.info?.isSome = true)
    (h3 : ∀ i c t el f, o ≠ .if_ i c t el f) (h4 : ∀ i j l, o ≠ .block i j l) :
    ∃ o, visitStmItem x = .ok o ∧ astStm A B leaf o = some v ∧ shape x o := ⟨o, h1, h2, shape_of h h3 h4⟩

mutual
theorem stm_eval (hA : Agrees A leaf) (hB : SAgrees A B) : ∀ x : Stm, okStm x →
    ∃ o, visitStm x = .ok o ∧ astStm A B leaf o = some (evStm A B x) ∧ shapeN (.stm x) o
  | .mk label item, h => by
    simp only [okStm] at h
    obtain ⟨hl, hi⟩ := h
    obtain ⟨o, h1, h2, h3, h4, h5⟩ := item_eval hA hB item hi
    cases label with
    | none =>
      refine ⟨o, by simp only [visitStm, h1, bind, Except.bind, pure, Except.pure, addLabel], by simpa only [evStm, optLabel] using h2, h3, ?_, ?_,
        fun hf i j l ho => (h5 i j l ho).2.2 hf⟩
      · intro _ i c t el f ho
        exact (h4 i c t el f ho).1
      · intro hb i j l ho
        refine (h5 i j l ho).2.1 ?_
        have := (h5 i j l ho).1
        cases item <;> simp only [isBlockItem, Bool.false_eq_true] at this
        · simp [labelledBlock] at hb
        · rename_i lab _ _ _
          cases lab with
          | none => rfl
          | some _ => simp [labelledBlock] at hb
    | some n =>
      obtain ⟨he, hk⟩ := hl
      refine ⟨_, by simp only [visitStm, h1, bind, Except.bind, pure, Except.pure, addLabel]; rfl, ?_, ?_, ?_, ?_, ?_⟩
      · rw [astStm_label o n.text _ h3 h2, hA.ident n n.text (by simp [identStr, he]) hk]
        simp only [evStm, optLabel]
      · cases o <;> first | (simp [Obj.info?] at h3; done) | rfl
      · intro hf i c t el f ho
        obtain ⟨i', rfl⟩ := mapInfo_if ho
        have := (h4 _ _ _ _ _ rfl).2
        cases item <;> simp [isIfItem] at this <;> simp [labelledIf] at hf
      · intro hf i j l ho
        obtain ⟨i', rfl⟩ := mapInfo_block ho
        have := (h5 _ _ _ rfl).1
        cases item <;> simp [isBlockItem] at this <;> simp [labelledBlock] at hf
      · intro hf i j l ho
        obtain ⟨i', rfl⟩ := mapInfo_block ho
        exact (h5 _ _ _ rfl).2.2 hf
theorem stmN_eval (hA : Agrees A leaf) (hB : SAgrees A B) : ∀ x : StmN, okStmN x →
    ∃ o, visitStmN x = .ok o ∧ astStm A B leaf o = some (evStmN A B x) ∧ shapeN x o
  | .stm s, h => by
    simp only [okStmN] at h
    simp only [visitStmN, evStmN]
    exact stm_eval hA hB s h
  | .semi, _ => by
    refine ⟨.nop {}, by simp only [visitStmN], by simp only [astStm, withInfo_nil, evStmN], rfl, ?_, ?_, ?_⟩
    · intro _ _ _ _ _ _ h; cases h
    · intro _ _ _ _ h; cases h
    · intro _ _ _ _ h; cases h
theorem stmNs_eval (hA : Agrees A leaf) (hB : SAgrees A B) : ∀ x : List StmN, okStmNs x →
    ∃ l, visitStmNs x = .ok l ∧ astStms A B leaf l = some (evStmNs A B x)
  | [], _ => ⟨[], by simp only [visitStmNs], by simp only [astStms, evStmNs]⟩
  | s :: l, h => by
    simp only [okStmNs] at h
    obtain ⟨a, h1, h2, _⟩ := stmN_eval hA hB s h.1
    obtain ⟨b, h3, h4⟩ := stmNs_eval hA hB l h.2
    refine ⟨a :: b, by simp only [visitStmNs, h1, h3, bind, Except.bind, pure, Except.pure], ?_⟩
    simp only [astStms, h2, h4, Option.bind_eq_bind, Option.bind_some, pure, evStmNs]
theorem item_eval (hA : Agrees A leaf) (hB : SAgrees A B) : ∀ x : StmItem, okItem x →
    ∃ o, visitStmItem x = .ok o ∧ astStm A B leaf o = some (evItem A B x) ∧ shape x o
  | .blocking dst d src, h => by
    simp only [okItem] at h
    obtain ⟨ed, h1, h2⟩ := lval_eval hA dst h.1
    obtain ⟨es, h3, h4⟩ := exp_eval hA src h.2.1
    obtain ⟨dl, ev, h5, h6, h7⟩ := timedAssign_eval (B := B) hA h2 h4 d h.2.2 true
    refine simple (o := .assign {} ed es dl ev true) ?_ ?_ rfl (by intros; simp) (by intros; simp)
    · simp only [visitStmItem, h1, h3, h5, h6, bind, Except.bind]
    · simpa only [evItem] using h7
  | .arrayNew _, h => by simp [okItem] at h
  | .classNew, h => by simp [okItem] at h
  | .opAssign a, h => by
    simp only [okItem] at h
    obtain ⟨e, h1, h2⟩ := opAssign_eval hA hB a h
    refine simple (o := .expr {} e) ?_ ?_ rfl (by intros; simp) (by intros; simp)
    · simp only [visitStmItem, h1, bind, Except.bind, pure, Except.pure]
    · simpa only [evItem] using h2
  | .nonblocking dst none src, h => by
    simp only [okItem] at h
    obtain ⟨ed, h1, h2⟩ := lval_eval hA dst h.1
    obtain ⟨es, h3, h4⟩ := exp_eval hA src h.2
    refine simple (o := .assign {} ed es .null none false) ?_ ?_ rfl (by intros; simp) (by intros; simp)
    · simp only [visitStmItem, h1, h3, mkAssign_eq h2 h4, bind, Except.bind]
    · simpa only [evItem] using assign_eval h2 h4 false
  | .nonblocking dst (some d) src, h => by
    simp only [okItem] at h
    obtain ⟨ed, h1, h2⟩ := lval_eval hA dst h.1
    obtain ⟨es, h3, h4⟩ := exp_eval hA src h.2.1
    obtain ⟨dl, ev, h5, h6, h7⟩ := timedAssign_eval (B := B) hA h2 h4 d h.2.2 false
    refine simple (o := .assign {} ed es dl ev false) ?_ ?_ rfl (by intros; simp) (by intros; simp)
    · simp only [visitStmItem, h1, h3, h5, h6, bind, Except.bind]
    · simpa only [evItem] using h7
  | .unsupported _, h => by simp [okItem] at h
  | .incDec pre inc l, h => by
    simp only [okItem] at h
    obtain ⟨e, h1, h2⟩ := exp_eval hA (.incDec pre inc l) (by simpa only [okExp] using h)
    refine simple (o := .expr {} e) ?_ ?_ rfl (by intros; simp) (by intros; simp)
    · simp only [visitStmItem, h1, bind, Except.bind, pure, Except.pure]
    · simpa only [evItem, evExp] using exprStm_eval h2
  | .prim p, h => by
    simp only [okItem] at h
    obtain ⟨e, h1, h2⟩ := prim_eval hA p h
    refine simple (o := .expr {} e) ?_ ?_ rfl (by intros; simp) (by intros; simp)
    · simp only [visitStmItem, h1, bind, Except.bind, pure, Except.pure]
    · simpa only [evItem] using exprStm_eval h2
  | .caseInside _ _ _, h => by simp [okItem] at h
  | .caseMatches _ _ _ _, h => by simp [okItem] at h
  | .case u kw sel items, h => by
    simp only [okItem] at h
    obtain ⟨e, h1, h2⟩ := exp_eval hA sel h.1
    obtain ⟨bs, bs', h3, h4, _, h5⟩ := caseItems_eval hA hB items h.2.1
    obtain ⟨d', h6, h7⟩ := h5 h.2.2
    refine simple (o := .case {} (UniqPrio.toUniq u) kw.toType e bs' d') ?_ ?_ rfl (by intros; simp) (by intros; simp)
    · simp only [visitStmItem, h1, h3, h6, bind, Except.bind, pure, Except.pure]
    · simp only [astStm, withInfo_nil, h2, h4, h7, Option.bind_eq_bind, Option.bind_some, pure, evItem]
      have hu : UniqPrio.toUniq u = uniqOf u := by
        cases u with
        | none => rfl
        | some x => cases x <;> rfl
      have hk : kw.toType = caseOf kw := by cases kw <;> rfl
      rw [hu, hk]
  | .if_ u c t, h => by
    simp only [okItem] at h
    obtain ⟨rfl, hc, ht⟩ := h
    obtain ⟨e, h1, h2⟩ := condPred_eval hA c hc
    obtain ⟨o, h3, h4, _⟩ := stmN_eval hA hB t ht
    refine ⟨.if_ {} e o [] .null, ?_, ?_, rfl, ?_, ?_⟩
    · simp only [visitStmItem, h1, h3, bind, Except.bind, collapseElifs]
    · simp only [astStm, withInfo_nil, h2, h4, optStm, astElifs, Option.bind_eq_bind, Option.bind_some, pure, evItem]
    · intro i c t el f hh
      injection hh with h5
      exact ⟨h5.symm, rfl⟩
    · intro i j l hh; cases hh
  | .ifElse u c t f, h => by
    simp only [okItem] at h
    obtain ⟨rfl, hc, ht, hf, hl⟩ := h
    obtain ⟨e, h1, h2⟩ := condPred_eval hA c hc
    obtain ⟨o, h3, h4, _⟩ := stmN_eval hA hB t ht
    obtain ⟨p, h5, h6, _, h7, _⟩ := stmN_eval hA hB f hf
    obtain ⟨r, h8, h9, el, f', rfl⟩ := collapse_eval h2 h4 h6 (h7 hl)
    refine ⟨_, by simp only [visitStmItem, h1, h3, h5, bind, Except.bind]; exact h8, by simpa only [evItem] using h9, rfl, ?_, ?_⟩
    · intro i c t el f hh
      injection hh with h5
      exact ⟨h5.symm, rfl⟩
    · intro i j l hh; cases hh
  | .voidCall e, h => by
    simp only [okItem] at h
    obtain ⟨e', h1, h2⟩ := exp_eval hA e h
    refine simple (o := .expr {} (.mkBin none (.id none (c! "void")) .CALL e')) ?_ ?_ rfl (by intros; simp) (by intros; simp)
    · simp only [visitStmItem, h1, bind, Except.bind, pure, Except.pure]
    · simp only [evItem]
      exact exprStm_eval (by rw [astEval_bin (kw_eval hA (s := c! "void") (by decide +kernel)) h2]; rfl)
  | .forever b, h => by
    simp only [okItem] at h
    obtain ⟨o, h3, h4, _⟩ := stmN_eval hA hB b h
    refine simple (o := .while_ {} oneE o) ?_ ?_ rfl (by intros; simp) (by intros; simp)
    · simp only [visitStmItem, h3, bind, Except.bind, pure, Except.pure]
    · simp only [astStm, withInfo_nil, oneE, astEval, hA.signed, h4, Option.bind_eq_bind, Option.bind_some, pure, evItem, hB.forever]
  | .repeat_ e b, h => by
    simp only [okItem] at h
    obtain ⟨e', h1, h2⟩ := exp_eval hA e h.1
    obtain ⟨o, h3, h4, _⟩ := stmN_eval hA hB b h.2
    refine simple (o := .repeat_ {} e' o) ?_ ?_ rfl (by intros; simp) (by intros; simp)
    · simp only [visitStmItem, h1, h3, bind, Except.bind, pure, Except.pure]
    · simp only [astStm, withInfo_nil, h2, h4, Option.bind_eq_bind, Option.bind_some, pure, evItem]
  | .while_ e b, h => by
    simp only [okItem] at h
    obtain ⟨e', h1, h2⟩ := exp_eval hA e h.1
    obtain ⟨o, h3, h4, _⟩ := stmN_eval hA hB b h.2
    refine simple (o := .while_ {} e' o) ?_ ?_ rfl (by intros; simp) (by intros; simp)
    · simp only [visitStmItem, h1, h3, bind, Except.bind, pure, Except.pure]
    · simp only [astStm, withInfo_nil, h2, h4, Option.bind_eq_bind, Option.bind_some, pure, evItem]
  | .doWhile b e, h => by
    simp only [okItem] at h
    obtain ⟨e', h1, h2⟩ := exp_eval hA e h.2
    obtain ⟨o, h3, h4, _⟩ := stmN_eval hA hB b h.1
    refine simple (o := .doWhile {} o e') ?_ ?_ rfl (by intros; simp) (by intros; simp)
    · simp only [visitStmItem, h1, h3, bind, Except.bind, pure, Except.pure]
    · simp only [astStm, withInfo_nil, h2, h4, Option.bind_eq_bind, Option.bind_some, pure, evItem]
  | .for_ init cond step b, h => by
    simp only [okItem] at h
    obtain ⟨hi, hc, hs, hb⟩ := h
    obtain ⟨ri, h1, h2⟩ := forInit_eval (B := B) hA init hi
    obtain ⟨ec, vc, h3, h4, h5⟩ := forCond_eval hA hB cond hc
    obtain ⟨rs, h6, h7⟩ := forStep_eval hA hB step hs
    obtain ⟨o, h8, h9, _⟩ := stmN_eval hA hB b hb
    refine simple (o := .for_ {} (.block {} .SEQ ri) ec (.block {} .SEQ rs) o) ?_ ?_ rfl (by intros; simp) (by intros; simp)
    · simp only [visitStmItem, h1, h3, h6, h8, bind, Except.bind, pure, Except.pure]
    · simp only [astStm, withInfo_nil, h2, h4, h7, h9, Option.bind_eq_bind, Option.bind_some, pure, evItem, h5]
  | .foreach coll vars b, h => by
    simp only [okItem] at h
    obtain ⟨hc, hv, hb⟩ := h
    obtain ⟨ec, h1, h2⟩ := hsel_eval hA coll hc
    obtain ⟨rv, h3, h4⟩ := loopVars_eval hA vars hv
    obtain ⟨o, h8, h9, _⟩ := stm_eval hA hB b hb
    refine simple (o := .forIn {} rv ec o) ?_ ?_ rfl (by intros; simp) (by intros; simp)
    · simp only [visitStmItem, h1, h3, h8, bind, Except.bind, pure, Except.pure]
    · simp only [astStm, withInfo_nil, h2, h4, h9, Option.bind_eq_bind, Option.bind_some, pure, evItem]
  | .return_ none, _ => by
    refine simple (o := .return_ {} .null) (by simp only [visitStmItem]) ?_ rfl (by intros; simp) (by intros; simp)
    simp only [astStm, withInfo_nil, astOpt, Option.map_some, evItem, Option.map_none]
  | .return_ (some e), h => by
    simp only [okItem, okOptExp] at h
    obtain ⟨e', h1, h2⟩ := exp_eval hA e h
    refine simple (o := .return_ {} e') ?_ ?_ rfl (by intros; simp) (by intros; simp)
    · simp only [visitStmItem, h1, bind, Except.bind, pure, Except.pure]
    · simp only [astStm, withInfo_nil, astOpt_some h2, Option.map_some, evItem]
  | .break_, _ => by
    refine simple (o := .break_ {}) (by simp only [visitStmItem]) ?_ rfl (by intros; simp) (by intros; simp)
    simp only [astStm, withInfo_nil, evItem]
  | .continue_, _ => by
    refine simple (o := .continue_ {}) (by simp only [visitStmItem]) ?_ rfl (by intros; simp) (by intros; simp)
    simp only [astStm, withInfo_nil, evItem]
  | .par label decls l join endLabel, h => by
    simp only [okItem] at h
    obtain ⟨hl, hd, hs⟩ := h
    obtain ⟨rd, h1, h2⟩ := blockDecls_eval (B := B) hA decls hd
    obtain ⟨rs, h3, h4⟩ := stmNs_eval hA hB l hs
    obtain ⟨ls, h5, h6, _⟩ := blockLabels_eval (B := B) hA label endLabel hl (B.block join (decls.flatMap (evBlockDecl A B) ++ evStmNs A B l))
    refine ⟨.block { labels := ls } join (rd ++ rs), ?_, ?_, rfl, ?_, ?_⟩
    · simp only [visitStmItem, h1, h3, h5, bind, Except.bind, pure, Except.pure]
    · simp only [astStm, withInfo, Bool.false_eq_true, if_false, astStms_append rd rs _ _ h2 h4, Option.map_some, h6, evItem]
    · intro i c t el f hh; cases hh
    · intro i j l hh
      exact ⟨rfl, fun h => (by cases h), fun h => (by cases h)⟩
  | .timing (.delay d) b, h => by
    simp only [okItem] at h
    obtain ⟨hd, hb, hl⟩ := h
    obtain ⟨ed, h1, h2⟩ := delayCtl_eval hA d hd
    obtain ⟨o, h3, h4, _, _, h5, _⟩ := stmN_eval hA hB b hb
    obtain ⟨b', h6, h7⟩ := mkTimed_eval hB h2 h4 (h5 hl)
    refine simple (o := .process {} .NONE none b') ?_ ?_ rfl (by intros; simp) (by intros; simp)
    · simp only [visitStmItem, visitTimingCtl, h1, h3, bind, Except.bind, pure, Except.pure]
      exact h6
    · simpa only [evItem] using h7
  | .timing (.event e) b, h => by
    simp only [okItem] at h
    obtain ⟨he, hb⟩ := h
    obtain ⟨ee, h1, h2⟩ := eventCtl_eval hA e he
    obtain ⟨o, h3, h4, _⟩ := stmN_eval hA hB b hb
    refine simple (o := .process {} .NONE (some ee) o) ?_ ?_ rfl (by intros; simp) (by intros; simp)
    · simp only [visitStmItem, visitTimingCtl, h1, h3, bind, Except.bind, pure, Except.pure, mkTimed]
    · simp only [astStm, withInfo_nil, h2, h4, Option.bind_eq_bind, Option.bind_some, pure, evItem]
  | .timing .cycle _, h => by simp [okItem] at h
  | .timing .cycleRange _, h => by simp [okItem] at h
  | .seq label decls l endLabel, h => by
    simp only [okItem] at h
    obtain ⟨hl, hd, hs⟩ := h
    obtain ⟨rd, h1, h2⟩ := blockDecls_eval (B := B) hA decls hd
    obtain ⟨rs, h3, h4⟩ := stmNs_eval hA hB l hs
    obtain ⟨ls, h5, h6, h7⟩ := blockLabels_eval (B := B) hA label endLabel hl (B.block .SEQ (decls.flatMap (evBlockDecl A B) ++ evStmNs A B l))
    refine ⟨.block { labels := ls } .SEQ (rd ++ rs), ?_, ?_, rfl, ?_, ?_⟩
    · simp only [visitStmItem, h1, h3, h5, bind, Except.bind, pure, Except.pure]
    · simp only [astStm, withInfo, Bool.false_eq_true, if_false, astStms_append rd rs _ _ h2 h4, Option.map_some, h6, evItem]
    · intro i c t el f hh; cases hh
    · intro i j l hh
      injection hh with h8 h9 _
      refine ⟨rfl, fun h => ?_, fun _ => h9.symm⟩
      cases label with
      | none => rw [h7 rfl] at h8; exact ⟨h8.symm, h9.symm⟩
      | some _ => cases h
theorem caseItems_eval (hA : Agrees A leaf) (hB : SAgrees A B) : ∀ x : List CaseItem, okCaseItems x →
    ∃ bs bs', visitCaseItems x = .ok bs ∧ astBranches A B leaf bs' = some (evCases A B x) ∧
      ((x.filter isDefault).length = 0 → evDefault A B x = none ∧ ∀ d, splitCases multiDefaultMsg d bs = .ok (bs', d)) ∧
      ((x.filter isDefault).length ≤ 1 → ∃ d', splitCases multiDefaultMsg .null bs = .ok (bs', d') ∧
        optStm d' (astStm A B leaf d') = some (evDefault A B x))
  | [], _ => by
    refine ⟨[], [], by simp only [visitCaseItems], by simp only [astBranches, evCases], ?_, ?_⟩
    · intro _; exact ⟨by simp only [evDefault], fun d => by simp only [splitCases]⟩
    · intro _; exact ⟨.null, by simp only [splitCases], by simp only [optStm, evDefault]⟩
  | .dflt s :: l, h => by
    simp only [okCaseItems] at h
    obtain ⟨o, h1, h2, _⟩ := stmN_eval hA hB s h.1
    obtain ⟨bs, bs', h3, h4, h5, _⟩ := caseItems_eval hA hB l h.2
    refine ⟨.mk .null o :: bs, bs', ?_, by simpa only [evCases] using h4, ?_, ?_⟩
    · simp only [visitCaseItems, visitCaseItem, h1, h3, bind, Except.bind, pure, Except.pure, List.cons_append, List.nil_append]
    · intro hh; simp [isDefault] at hh
    · intro hh
      have hl : (l.filter isDefault).length = 0 := by
        simp only [List.filter_cons, isDefault, if_true, List.length_cons] at hh
        omega
      obtain ⟨_, h6⟩ := h5 hl
      refine ⟨o, by simp only [splitCases, h6], ?_⟩
      have hn : optStm o (astStm A B leaf o) = some (some (evStmN A B s)) := by
        cases o <;> first | (simp [astStm] at h2; done) | (simp only [optStm, h2, Option.map_some])
      rw [hn, evDefault]
  | .exprs es s :: l, h => by
    simp only [okCaseItems] at h
    obtain ⟨o, h1, h2, _⟩ := stmN_eval hA hB s h.2.1
    obtain ⟨bs, bs', h3, h4, h5, h6⟩ := caseItems_eval hA hB l h.2.2
    obtain ⟨cs, h7, h8, h9⟩ := caseExprs_eval hA o _ h2 es h.1
    have hf : (CaseItem.exprs es s :: l).filter isDefault = l.filter isDefault := by
      simp only [List.filter_cons, isDefault, Bool.false_eq_true, if_false]
    rw [hf]
    refine ⟨cs ++ bs, cs ++ bs', ?_, ?_, ?_, ?_⟩
    · simp only [visitCaseItems, visitCaseItem, h1, h3, h7, bind, Except.bind, pure, Except.pure]
    · rw [astBranches_append cs bs' _ _ h8 h4, evCases]
    · intro hh
      exact ⟨by rw [evDefault]; exact (h5 hh).1, fun d => splitCases_append _ _ _ _ h9 _ _ ((h5 hh).2 d)⟩
    · intro hh
      obtain ⟨d', h10, h11⟩ := h6 hh
      exact ⟨d', splitCases_append _ _ _ _ h9 _ _ h10, by rw [evDefault]; exact h11⟩
end

end Verif.Sv
