import Mathlib.Data.List.Forall2
import Verif.VhdlExprLemmas
/-!
# Properties of operators and VHDL expressions (C36, C37, C38, C61, C62)
-/
namespace Verif
open Verif.Vhdl

/-- The names of the operators in the Python API (hdlConvertorAst, `class HdlOpType(Enum)`), written down independently of the
table of the converter. -/
def Spec.opName : OpType → Str
  | .MINUS_UNARY => c! "MINUS_UNARY" | .PLUS_UNARY => c! "PLUS_UNARY" | .SUB => c! "SUB" | .ADD => c! "ADD"
  | .DIV => c! "DIV" | .MUL => c! "MUL" | .MOD => c! "MOD" | .REM => c! "REM" | .POW => c! "POW"
  | .ABS => c! "ABS" | .INCR_PRE => c! "INCR_PRE" | .DECR_PRE => c! "DECR_PRE" | .INCR_POST => c! "INCR_POST"
  | .DECR_POST => c! "DECR_POST" | .NEG_LOG => c! "NEG_LOG" | .NEG => c! "NEG" | .AND_LOG => c! "AND_LOG"
  | .OR_LOG => c! "OR_LOG" | .AND => c! "AND" | .OR => c! "OR" | .NAND => c! "NAND" | .NOR => c! "NOR"
  | .XOR => c! "XOR" | .XNOR => c! "XNOR" | .OR_UNARY => c! "OR_UNARY" | .AND_UNARY => c! "AND_UNARY"
  | .NAND_UNARY => c! "NAND_UNARY" | .NOR_UNARY => c! "NOR_UNARY" | .XOR_UNARY => c! "XOR_UNARY"
  | .XNOR_UNARY => c! "XNOR_UNARY" | .SLL => c! "SLL" | .SRL => c! "SRL" | .SLA => c! "SLA"
  | .SRA => c! "SRA" | .ROL => c! "ROL" | .ROR => c! "ROR" | .EQ => c! "EQ" | .NE => c! "NE" | .IS => c! "IS"
  | .IS_NOT => c! "IS_NOT" | .LT => c! "LT" | .LE => c! "LE" | .GT => c! "GT" | .GE => c! "GE"
  | .EQ_MATCH => c! "EQ_MATCH" | .NE_MATCH => c! "NE_MATCH" | .LT_MATCH => c! "LT_MATCH"
  | .LE_MATCH => c! "LE_MATCH" | .GT_MATCH => c! "GT_MATCH" | .GE_MATCH => c! "GE_MATCH"
  | .INDEX => c! "INDEX" | .CONCAT => c! "CONCAT" | .REPL_CONCAT => c! "REPL_CONCAT"
  | .PART_SELECT_POST => c! "PART_SELECT_POST" | .PART_SELECT_PRE => c! "PART_SELECT_PRE" | .DOT => c! "DOT"
  | .DOUBLE_COLON => c! "DOUBLE_COLON" | .APOSTROPHE => c! "APOSTROPHE" | .ARROW => c! "ARROW"
  | .REFERENCE => c! "REFERENCE" | .DEREFERENCE => c! "DEREFERENCE" | .ASSIGN => c! "ASSIGN"
  | .PLUS_ASSIGN => c! "PLUS_ASSIGN" | .MINUS_ASSIGN => c! "MINUS_ASSIGN" | .MUL_ASSIGN => c! "MUL_ASSIGN"
  | .DIV_ASSIGN => c! "DIV_ASSIGN" | .MOD_ASSIGN => c! "MOD_ASSIGN" | .AND_ASSIGN => c! "AND_ASSIGN"
  | .OR_ASSIGN => c! "OR_ASSIGN" | .XOR_ASSIGN => c! "XOR_ASSIGN"
  | .SHIFT_LEFT_ASSIGN => c! "SHIFT_LEFT_ASSIGN" | .SHIFT_RIGHT_ASSIGN => c! "SHIFT_RIGHT_ASSIGN"
  | .ARITH_SHIFT_LEFT_ASSIGN => c! "ARITH_SHIFT_LEFT_ASSIGN"
  | .ARITH_SHIFT_RIGHT_ASSIGN => c! "ARITH_SHIFT_RIGHT_ASSIGN" | .TERNARY => c! "TERNARY"
  | .CALL => c! "CALL" | .RISING => c! "RISING" | .FALLING => c! "FALLING" | .DOWNTO => c! "DOWNTO"
  | .TO => c! "TO" | .PARAMETRIZATION => c! "PARAMETRIZATION" | .MAP_ASSOCIATION => c! "MAP_ASSOCIATION"
  | .RANGE => c! "RANGE" | .THROUGHOUT => c! "THROUGHOUT" | .DEFINE_RESOLVER => c! "DEFINE_RESOLVER"
  | .TYPE_OF => c! "TYPE_OF" | .UNIT_SPEC => c! "UNIT_SPEC"

/-- C36: every operator has the documented name, and different operators have different names. -/
theorem C36_operator_names : (∀ o : OpType, o.toString = .ok (Spec.opName o)) ∧
    ∀ o₁ o₂ : OpType, o₁.toString = o₂.toString → o₁ = o₂ := by
  have h : ∀ o : OpType, o.toString = .ok (Spec.opName o) := by
    intro o; cases o <;> rfl
  refine ⟨h, fun o₁ o₂ he => ?_⟩
  have hn : opTypeToStr.Nodup := by decide +kernel
  have hl : opTypeToStr.length = OpType.UNIT_SPEC.code + 1 := by decide +kernel
  have hc : ∀ o : OpType, o.code < opTypeToStr.length := by intro o; cases o <;> decide
  have h2 : ∀ o : OpType, o.toString = .ok (opTypeToStr[o.code]'(hc o)) := by
    intro o
    unfold OpType.toString
    rw [if_neg (by have := hc o; omega), List.getElem?_eq_getElem (hc o)]
  rw [h2 o₁, h2 o₂] at he
  have hi : o₁.ctorIdx = o₂.ctorIdx := (List.getElem_inj hn).1 (Except.ok.inj he)
  rw [← OpType.ofNat_ctorIdx o₁, ← OpType.ofNat_ctorIdx o₂, hi]

example : OpType.toString .UNIT_SPEC = .ok (c! "UNIT_SPEC") := rfl

namespace Vhdl
open Spec

/-- The unary variant of an operator. -/
def Spec.unaryOf : LogOp → OpType
  | .and => .AND_UNARY | .or => .OR_UNARY | .nand => .NAND_UNARY | .nor => .NOR_UNARY | .xor => .XOR_UNARY | .xnor => .XNOR_UNARY

/-- The operator of a converted expression and its operands. -/
def Spec.isUnary (o : OpType) (e : Expr) : Prop := ∃ p x, e = .op p o [x]

/-- C37 (all operators but `xnor`): a prefix operator becomes the unary variant, with one operand. Missing: `xnor`, see
`C37_violated_xnor`. -/
theorem C37_unary_partial (s : Simple) (e : Expr) (h : visitSimple s = .ok e) :
    (∀ o : LogOp, o ≠ .xnor → ∃ r, visitSimple (.logic o s) = .ok r ∧ Spec.isUnary (Spec.unaryOf o) r) ∧
    (∃ r, visitSimple (.sign .minus s) = .ok r ∧ Spec.isUnary .MINUS_UNARY r) ∧
    (∃ r, visitSimple (.sign .plus s) = .ok r ∧ Spec.isUnary .PLUS_UNARY r) ∧
    (∃ r, visitSimple (.not s) = .ok r ∧ Spec.isUnary .NEG r) ∧
    (∃ r, visitSimple (.abs s) = .ok r ∧ Spec.isUnary .ABS r) := by
  refine ⟨fun o ho => ?_, ?_, ?_, ?_, ?_⟩
  · cases o <;> first | exact absurd rfl ho |
      exact ⟨_, by simp only [visitSimple, h, LogOp.toOp, OpType.toUnary, bind, Except.bind, pure, Except.pure]; rfl, none, aggToParen e, rfl⟩
  all_goals
    exact ⟨_, by simp only [visitSimple, h, SignOp.toOp, OpType.toUnary, bind, Except.bind, pure, Except.pure]; rfl, none, aggToParen e, rfl⟩

example : visitSimple (.prim (.name (.lit (.ident (c! "a"))))) = .ok (.id none (c! "a")) := by simp [visitSimple, visitPrimary, visitName, visitNameLit]

/-- C37 is violated: the unary `xnor` of every operand becomes the binary operator `XNOR` with one operand. -/
theorem C37_violated_xnor (s : Simple) (e : Expr) (h : visitSimple s = .ok e) :
    ∃ r, visitSimple (.logic .xnor s) = .ok r ∧ Spec.isUnary .XNOR r ∧ ¬ Spec.isUnary (Spec.unaryOf .xnor) r := by
  refine ⟨.op none .XNOR [aggToParen e], ?_, ⟨_, _, rfl⟩, ?_⟩
  · simp only [visitSimple, h, LogOp.toOp, OpType.toUnary, bind, Except.bind, pure, Except.pure]; rfl
  · rintro ⟨p, x, hx⟩; cases hx

/-! ## Values for the examples: terms over converted tokens -/

/-- Terms. -/
inductive Term
  | tok (e : Expr)
  | node (s : String) (l : List Term)

/-- The term algebra: the value of an expression is the expression itself (with converted tokens). -/
def Term.alg : Alg Term where
  lit l := .tok ((visitNameLit l).toOption.getD .null)
  dec t := .tok ((visitDec t).toOption.getD .null)
  based t := .tok ((vhdlBased t).toOption.elim .null (.int none))
  bits t := .tok ((vhdlBitString t).toOption.elim .null (.int none))
  nul := .node "null" []
  opn := .node "open" []
  all := .node "all" []
  others := .node "others" []
  newKw := .tok (.id none (c! "new"))
  un s a := .node s [a]
  bin s a b := .node s [a, b]
  index f l := .node "index" (f :: l)
  call f l := .node "call" (f :: l)
  agg l := .node "agg" l
  choices l := .node "choices" l
  wave l := .node "wave" (l.flatMap fun p => p.1 :: p.2.toList)
  unaffected := .node "unaffected" []
  truth t := match t with | .tok _ => true | _ => false

theorem Term.agrees : Agrees Term.alg Term.tok where
  lit l e h := by simp [Term.alg, h, Except.toOption]
  dec t e h := by simp [Term.alg, h, Except.toOption]
  based t v h := by simp [Term.alg, h, Except.toOption]
  bits t v h := by simp [Term.alg, h, Except.toOption]
  newKw := rfl

/-! ## Meaning of expressions -/

/-- C61 (supported fragment): the AST of a VHDL expression has the meaning of the expression, whatever the operators mean.
Missing: what `okExpression` excludes, see the `C61_violated` theorems. -/
theorem C61_expression_meaning_partial {V : Type} (A : Alg V) (leaf : Expr → V) (hA : Agrees A leaf) (x : Expression)
    (h : okExpression x) : ∃ e, visitExpression x = .ok e ∧ astEval A leaf e = some (evExpression A x) := by
  obtain ⟨e, h1, h2, -⟩ := expression_eval hA x h
  exact ⟨e, h1, h2⟩

/-- C61 for names (which include calls, slices, attributes, selected names). -/
theorem C61_name_meaning_partial {V : Type} (A : Alg V) (leaf : Expr → V) (hA : Agrees A leaf) (n : Name)
    (h : okName n) : ∃ e, visitName n = .ok e ∧ astEval A leaf e = some (evName A n) := by
  obtain ⟨e, h1, h2, -⟩ := name_eval hA n h
  exact ⟨e, h1, h2⟩

/-- C61 for subtype indications (types of declared objects). -/
theorem C61_subtype_meaning_partial {V : Type} (A : Alg V) (leaf : Expr → V) (hA : Agrees A leaf) (s : SubInd)
    (h : okSubInd s) : ∃ e, visitSubInd s = .ok e ∧ astEval A leaf e = some (evSubInd A s) :=
  subind_eval hA s h

/-- C61: no two expressions with different meanings have the same AST. -/
theorem C61_expression_injective_partial (x y : Expression) (hx : okExpression x) (hy : okExpression y)
    (h : visitExpression x = visitExpression y) : evExpression Term.alg x = evExpression Term.alg y := by
  obtain ⟨e, h1, h2, -⟩ := expression_eval Term.agrees x hx
  obtain ⟨f, h3, h4, -⟩ := expression_eval Term.agrees y hy
  rw [h1, h3] at h
  cases h
  exact Option.some.inj (h2.symm.trans h4)

/-- `a(1 downto 0) + f(x => b) = (others => '0')` -/
def exE : Expression :=
  .rel (.simple (.add (.prim (.name (.slice (.lit (.ident (c! "a"))) (.mk (.prim (.dec (c! "1"))) true (.prim (.dec (c! "0")))))))
      .plus (.prim (.name (.assoc (.lit (.ident (c! "f"))) [.named (.lit (.ident (c! "x")))
        (.desig (.expr (.simple (.prim (.name (.lit (.ident (c! "b")))))))) ])))))
    .eq (.simple (.prim (.agg [.named [.others] (.simple (.prim (.name (.lit (.chr (c! "'0'"))))))])))

example : okExpression exE := by
  simp only [exE, okExpression, okSimple, okPrimary, okName, okERange, okAssocs, okAssoc, okActual, okDesig, okElems, okElem,
    okChoices, okChoice, litOk, oneAggS, oneAggP]
  refine ⟨⟨⟨⟨⟨_, rfl⟩, ⟨_, rfl⟩, ⟨_, rfl⟩⟩, trivial⟩, ⟨⟨_, rfl⟩, ⟨⟨_, rfl⟩, _, rfl⟩, trivial⟩, trivial⟩, ⟨⟨trivial, trivial⟩, rfl, _, rfl⟩, trivial⟩

/-- An identifier as a primary. -/
def idP (s : Str) : Primary := .name (.lit (.ident s))
/-- An identifier as an expression. -/
def idE (s : Str) : Expression := .simple (.prim (idP s))

/-- C61 is violated by the condition operator: `?? p` has the same AST as `p`. -/
theorem C61_violated_cond (s : Str) : visitExpression (.cond (idP s)) = visitExpression (idE s) ∧
    evExpression Term.alg (.cond (idP s)) ≠ evExpression Term.alg (idE s) := by
  constructor
  · simp [visitExpression, visitSimple, visitPrimary, visitName, visitNameLit, idE, idP, bind, Except.bind, pure, Except.pure, aggToParen]
  · simp [evExpression, evSimple, evPrimary, evName, idE, idP, Term.alg]

/-- C61 is violated by alternatives in aggregates: `(c => e, ...)` and `(c | d => e, ...)` have the same AST. -/
theorem C61_violated_choices (c d : Choice) (e : Expression) (l : List Elem) (ec ed ee : Expr) (hc : visitChoice c = .ok ec)
    (hd : visitChoice d = .ok ed) (he : visitExpression e = .ok ee) :
    visitPrimary (.agg (.named [c, d] e :: l)) = visitPrimary (.agg (.named [c] e :: l)) := by
  simp [visitPrimary, visitElems, visitElem, visitChoices, hc, hd, he, bind, Except.bind, pure, Except.pure]

/-- The aggregates `(c => e, ...)` and `(c | d => e, ...)` mean different things. -/
theorem C61_violated_choices_meaning (c d : Choice) (e : Expression) (l : List Elem) (hc : evChoice Term.alg c ≠ .node "choices" (evChoices Term.alg [c, d])) :
    evPrimary Term.alg (.agg (.named [c, d] e :: l)) ≠ evPrimary Term.alg (.agg (.named [c] e :: l)) := by
  intro h
  simp only [evPrimary, evAgg, evElems, evElem] at h
  simp only [Term.alg, Term.node.injEq, List.cons.injEq, true_and] at h
  exact hc h.1.1.symm

example : visitChoice (.simple (.prim (.dec (c! "0")))) = .ok (.int none (IntVal.ofBig (.ofInt 0))) ∧
    visitChoice (.simple (.prim (.dec (c! "1")))) = .ok (.int none (IntVal.ofBig (.ofInt 1))) ∧
    evChoice Term.alg (.simple (.prim (.dec (c! "0")))) ≠ .node "choices" (evChoices Term.alg [.simple (.prim (.dec (c! "0"))), .simple (.prim (.dec (c! "1")))]) :=
  ⟨rfl, rfl, by simp [evChoice, evSimple, evPrimary, Term.alg]⟩

/-- C61 is violated by aggregates of one named element as operands: `a & (others => b)` has the AST of the association without the
aggregate. -/
theorem C61_violated_aggregate (a b : Str) :
    visitSimple (.add (.prim (idP a)) .amp (.prim (.agg [.named [.others] (idE b)]))) =
      .ok (.op none .CONCAT [.id none a, .op none .MAP_ASSOCIATION [.symb none .OTHERS, .id none b]]) ∧
    ∀ (V : Type) (A : Alg V) (leaf : Expr → V), Agrees A leaf →
      (∀ e, visitSimple (.add (.prim (idP a)) .amp (.prim (.agg [.named [.others] (idE b)]))) = .ok e →
        astEval A leaf e = some (A.bin "&" (A.lit (.ident a)) (A.bin "assoc" A.others (A.lit (.ident b))))) ∧
      evSimple A (.add (.prim (idP a)) .amp (.prim (.agg [.named [.others] (idE b)]))) =
        A.bin "&" (A.lit (.ident a)) (A.agg [A.bin "assoc" A.others (A.lit (.ident b))]) := by
  have h : visitSimple (.add (.prim (idP a)) .amp (.prim (.agg [.named [.others] (idE b)]))) =
      .ok (.op none .CONCAT [.id none a, .op none .MAP_ASSOCIATION [.symb none .OTHERS, .id none b]]) := by
    simp [visitExpression, visitSimple, visitPrimary, visitName, visitNameLit, visitElems, visitElem, visitChoices, visitChoice, idE, idP,
      bind, Except.bind, pure, Except.pure, aggToParen, mkAggregate, Expr.mkBin, Expr.push, AddOp.toOp]
  refine ⟨h, fun V A leaf hA => ⟨fun e he => ?_, ?_⟩⟩
  · rw [h] at he
    obtain rfl := Except.ok.inj he
    have ha := ident_eval hA a
    have hb := ident_eval hA b
    simp only [astEval] at ha hb
    simp [astEval, astEvals, ha, hb, symMeaning, opMeaning]
  · simp [evExpression, evSimple, evPrimary, evName, evAgg, evElems, evElem, evChoice, idE, idP, AddOp.sym]

/-- C61 is violated by record constraints: the type is lost. -/
theorem C61_violated_record_constraint (a b : Str) :
    visitSubInd (.mk .none (.lit (.ident a)) .record) = visitSubInd (.mk .none (.lit (.ident b)) .record) := by
  simp [visitSubInd, visitResol, visitConstr, visitName, visitNameLit, bind, Except.bind, pure, Except.pure]

/-! ## Conditional waveforms -/

/-- The result is not null, and an array with one element holds an element association. -/
def NN (e : Expr) : Prop := e ≠ .null ∧ ∀ p x, e = .arr p [x] → ∃ q l, x = .op q .MAP_ASSOCIATION l

theorem NN.agg {e : Expr} (h : NN e) : NN (aggToParen e) := by
  unfold aggToParen
  split
  · rename_i p x
    obtain ⟨q, l, rfl⟩ := h.2 p x rfl
    exact ⟨by simp, by simp⟩
  · exact h

theorem nn_op (p : Option CodePos) (o : OpType) (l : List Expr) : NN (.op p o l) := ⟨by simp, by simp⟩

/-- Splits a chain of conversions that succeeded. -/
theorem bind_ok {α β : Type} {x : Except Exc α} {f : α → Except Exc β} {b : β} (h : (x >>= f) = .ok b) : ∃ a, x = .ok a ∧ f a = .ok b := by
  cases x with
  | error e => cases h
  | ok a => exact ⟨a, rfl, h⟩

theorem nn_lit {l : NameLit} {e : Expr} (h : visitNameLit l = .ok e) : NN e := by
  cases l with
  | ident t => cases h; exact ⟨by simp, by simp⟩
  | opSymbol t => simp only [visitNameLit] at h; obtain ⟨s, -, h⟩ := bind_ok h; cases h; exact ⟨by simp, by simp⟩
  | chr t => simp only [visitNameLit] at h; obtain ⟨s, -, h⟩ := bind_ok h; cases h; exact ⟨by simp, by simp⟩

theorem nn_name {n : Name} {e : Expr} (h : visitName n = .ok e) : NN e := by
  cases n with
  | lit l => simp only [visitName] at h; exact nn_lit h
  | external => simp only [visitName] at h; cases h; exact ⟨by simp, by simp⟩
  | slice n r =>
    simp only [visitName] at h; obtain ⟨a, -, h⟩ := bind_ok h; obtain ⟨b, -, h⟩ := bind_ok h; cases h; exact nn_op ..
  | attr n sg d => simp only [visitName] at h; obtain ⟨a, -, h⟩ := bind_ok h; cases h; exact nn_op ..
  | dot n s =>
    simp only [visitName] at h; obtain ⟨a, -, h⟩ := bind_ok h; obtain ⟨b, -, h⟩ := bind_ok h; cases h; exact nn_op ..
  | assoc n l =>
    simp only [visitName] at h; obtain ⟨a, -, h⟩ := bind_ok h; obtain ⟨b, -, h⟩ := bind_ok h; cases h; exact nn_op ..

theorem nn_dec {t : Str} {e : Expr} (h : visitDec t = .ok e) : NN e := by
  unfold visitDec at h
  obtain ⟨v, -, h⟩ := bind_ok h
  cases v <;> cases h <;> exact ⟨by simp, by simp⟩

mutual
theorem nn_expression : ∀ (x : Expression) (e : Expr), visitExpression x = .ok e → NN e
  | .cond p, e, h => by
    simp only [visitExpression] at h; obtain ⟨a, ha, h⟩ := bind_ok h; cases h; exact (nn_primary p a ha).agg
  | .simple s, e, h => by simp only [visitExpression] at h; exact nn_simple s e h
  | .shift a o b, e, h => by
    simp only [visitExpression] at h; obtain ⟨_, -, h⟩ := bind_ok h; obtain ⟨_, -, h⟩ := bind_ok h; cases h; exact nn_op ..
  | .rel a o b, e, h => by
    simp only [visitExpression] at h; obtain ⟨_, -, h⟩ := bind_ok h; obtain ⟨_, -, h⟩ := bind_ok h; cases h; exact nn_op ..
  | .logic a o b, e, h => by
    simp only [visitExpression] at h; obtain ⟨_, -, h⟩ := bind_ok h; obtain ⟨_, -, h⟩ := bind_ok h; cases h; exact nn_op ..
theorem nn_simple : ∀ (x : Simple) (e : Expr), visitSimple x = .ok e → NN e
  | .prim p, e, h => by simp only [visitSimple] at h; exact nn_primary p e h
  | .pow a b, e, h => by
    simp only [visitSimple] at h; obtain ⟨_, -, h⟩ := bind_ok h; obtain ⟨_, -, h⟩ := bind_ok h; cases h; exact nn_op ..
  | .abs s, e, h => by simp only [visitSimple] at h; obtain ⟨_, -, h⟩ := bind_ok h; cases h; exact nn_op ..
  | .not s, e, h => by simp only [visitSimple] at h; obtain ⟨_, -, h⟩ := bind_ok h; cases h; exact nn_op ..
  | .logic o s, e, h => by
    simp only [visitSimple] at h; obtain ⟨_, -, h⟩ := bind_ok h; obtain ⟨_, -, h⟩ := bind_ok h; cases h; exact nn_op ..
  | .sign o s, e, h => by
    simp only [visitSimple] at h; obtain ⟨_, -, h⟩ := bind_ok h; obtain ⟨_, -, h⟩ := bind_ok h; cases h; exact nn_op ..
  | .mul a o b, e, h => by
    simp only [visitSimple] at h; obtain ⟨_, -, h⟩ := bind_ok h; obtain ⟨_, -, h⟩ := bind_ok h; cases h; exact nn_op ..
  | .add a o b, e, h => by
    simp only [visitSimple] at h; obtain ⟨_, -, h⟩ := bind_ok h; obtain ⟨_, -, h⟩ := bind_ok h; cases h; exact nn_op ..
theorem nn_primary : ∀ (x : Primary) (e : Expr), visitPrimary x = .ok e → NN e
  | .name n, e, h => by simp only [visitPrimary] at h; exact nn_name h
  | .dec t, e, h => by simp only [visitPrimary] at h; exact nn_dec h
  | .decUnit t n, e, h => by
    simp only [visitPrimary] at h; obtain ⟨_, -, h⟩ := bind_ok h; obtain ⟨_, -, h⟩ := bind_ok h; cases h; exact nn_op ..
  | .based t, e, h => by
    simp only [visitPrimary] at h; obtain ⟨_, -, h⟩ := bind_ok h; cases h; exact ⟨by simp, by simp⟩
  | .basedUnit t n, e, h => by
    simp only [visitPrimary] at h; obtain ⟨_, -, h⟩ := bind_ok h; obtain ⟨_, -, h⟩ := bind_ok h; cases h; exact nn_op ..
  | .bits t, e, h => by
    simp only [visitPrimary] at h; obtain ⟨_, -, h⟩ := bind_ok h; cases h; exact ⟨by simp, by simp⟩
  | .null, e, h => by simp only [visitPrimary] at h; cases h; exact ⟨by simp, by simp⟩
  | .newSub s, e, h => by simp only [visitPrimary] at h; obtain ⟨_, -, h⟩ := bind_ok h; cases h; exact nn_op ..
  | .newQual t l, e, h => by
    simp only [visitPrimary] at h; obtain ⟨_, -, h⟩ := bind_ok h; obtain ⟨_, -, h⟩ := bind_ok h; cases h; exact nn_op ..
  | .agg l, e, h => by
    simp only [visitPrimary] at h; obtain ⟨el, hl, h⟩ := bind_ok h; cases h; exact nn_agg l el hl
  | .qual t l, e, h => by
    simp only [visitPrimary] at h; obtain ⟨_, -, h⟩ := bind_ok h; obtain ⟨_, -, h⟩ := bind_ok h; cases h; exact nn_op ..
theorem nn_agg : ∀ (l : List Elem) (el : List Expr), visitElems l = .ok el → NN (mkAggregate el)
  | [], el, h => by simp only [visitElems] at h; cases h; exact ⟨by simp [mkAggregate], by simp [mkAggregate]⟩
  | [x], el, h => by
    simp only [visitElems] at h
    obtain ⟨e, he, h⟩ := bind_ok h
    obtain ⟨l, hl, h⟩ := bind_ok h
    cases hl; cases h
    have := nn_elem x e he
    unfold mkAggregate; simp only
    split
    · exact ⟨by simp, fun q y hy => ⟨_, _, (List.cons.inj (Expr.arr.inj hy).2).1.symm⟩⟩
    · exact this
  | x :: y :: l, el, h => by
    simp only [visitElems] at h
    obtain ⟨e, -, h⟩ := bind_ok h
    obtain ⟨l, hl, h⟩ := bind_ok h
    obtain ⟨f, -, hl⟩ := bind_ok hl
    obtain ⟨l, -, hl⟩ := bind_ok hl
    cases hl; cases h
    exact ⟨by simp [mkAggregate], by simp [mkAggregate]⟩
theorem nn_elem : ∀ (x : Elem) (e : Expr), visitElem x = .ok e → NN e
  | .pos x, e, h => by simp only [visitElem] at h; exact nn_expression x e h
  | .named l x, e, h => by
    simp only [visitElem] at h
    obtain ⟨a, -, h⟩ := bind_ok h
    obtain ⟨b, -, h⟩ := bind_ok h
    cases b with
    | nil => cases h
    | cons c b => cases h; exact nn_op ..
end

theorem nn_waveTail : ∀ (l : List WaveElem) (top e : Expr), NN top → visitWaveTail top l = .ok e → NN e
  | [], top, e, ht, h => by simp only [visitWaveTail] at h; cases h; exact ht
  | w :: l, top, e, _, h => by
    simp only [visitWaveTail] at h
    obtain ⟨a, -, h⟩ := bind_ok h
    exact nn_waveTail l _ e (nn_op ..) h

theorem nn_waveform {w : Waveform} {e : Expr} (h : visitWaveform w = .ok e) : e ≠ .null := by
  cases w with
  | unaffected => cases h; simp
  | elems hd t =>
    simp only [visitWaveform] at h
    obtain ⟨a, ha, h⟩ := bind_ok h
    exact (nn_waveTail t a e (nn_expression _ _ ha) h).1

/-- A relation between ASTs and values that understands `TERNARY`: with three operands as conditional, with two operands as
conditional that otherwise leaves the target as it is (`keep`). -/
structure TernaryMeaning {V : Type} (R : Expr → V → Prop) (truth : V → Bool) (keep : V) : Prop where
  three : ∀ p c t e vc vt ve, R c vc → R t vt → R e ve → R (.op p .TERNARY [c, t, e]) (if truth vc then vt else ve)
  two : ∀ p c t vc vt, R c vc → R t vt → R (.op p .TERNARY [c, t]) (if truth vc then vt else keep)

/-- The parts of one alternative are converted and mean `v`. -/
def PartMeaning {V : Type} (R : Expr → V → Prop) (p : Waveform × Expression) (v : V × V) : Prop :=
  (∃ e, visitWaveform p.1 = .ok e ∧ R e v.1) ∧ ∃ e, visitExpression p.2 = .ok e ∧ R e v.2

theorem condLoop_spec {V : Type} {R : Expr → V → Prop} {truth : V → Bool} {keep : V} (hT : TernaryMeaning R truth keep) (hE : Bool) :
    ∀ (L : List (Waveform × Expression)) (C : List (V × V)) (res : Expr) (vres : V),
      List.Forall₂ (PartMeaning R) L C → res ≠ .null → R res vres →
      ∃ e, condLoop hE (L.map (·.1)) (L.map (·.2)) res = .ok e ∧
        R e (C.foldl (fun acc q => if truth q.2 then q.1 else acc) vres)
  | [], [], res, vres, _, hres, hv => ⟨res, by simp [condLoop], hv⟩
  | p :: L, q :: C, res, vres, h, hres, hv => by
    obtain ⟨⟨⟨w, h1, hw⟩, x, h2, hx⟩, h3⟩ := List.forall₂_cons.1 h
    have hp : res.push = [res] := by cases res <;> first | rfl | exact absurd rfl hres
    obtain ⟨e, he, hv⟩ := condLoop_spec hT hE L C (.mkTernary none x w res) _ h3 (by simp [Expr.mkTernary])
      (by simp only [Expr.mkTernary, hp]; exact hT.three none x w res _ _ _ hx hw hv)
    refine ⟨e, ?_, hv⟩
    simp only [List.map_cons, condLoop, h1, bind, Except.bind]
    split
    · exact absurd rfl hres
    · rw [h2]; exact he

theorem foldl_firstTrue {V : Type} (truth : V → Bool) (d : V) (C : List (V × V)) :
    C.reverse.foldl (fun acc q => if truth q.2 then q.1 else acc) d = firstTrue truth d C := by
  rw [List.foldl_reverse]
  induction C with
  | nil => rfl
  | cons q C ih => simp only [List.foldr_cons, firstTrue]; rw [ih]

theorem visitCondWaves_some (h : Waveform × Expression) (t : List (Waveform × Expression)) (w : Waveform) :
    visitCondWaves ⟨h, t, some w⟩ = condLoop true (w :: (h :: t).reverse.map (·.1)) ((h :: t).reverse.map (·.2)) .null := by
  have e : ∀ b l₁ l₁' l₂ l₂', b = true → l₁ = l₁' → l₂ = l₂' → condLoop b l₁ l₂ .null = condLoop true l₁' l₂' .null := by
    rintro b l₁ l₁' l₂ l₂' rfl rfl rfl; rfl
  exact e _ _ _ _ _ (by simp) (by simp) (by simp)

theorem visitCondWaves_none (h : Waveform × Expression) (t : List (Waveform × Expression)) :
    visitCondWaves ⟨h, t, none⟩ = condLoop false ((h :: t).reverse.map (·.1)) ((h :: t).reverse.map (·.2)) .null := by
  have e : ∀ b l₁ l₁' l₂ l₂', b = false → l₁ = l₁' → l₂ = l₂' → condLoop b l₁ l₂ .null = condLoop false l₁' l₂' .null := by
    rintro b l₁ l₁' l₂ l₂' rfl rfl rfl; rfl
  exact e _ _ _ _ _ (by simp) (by simp) (by simp)

/-- C38: whatever the waveforms and conditions are, and for every interpretation of the AST that understands `TERNARY`: if the
waveforms `w i` and conditions `c i` are converted to ASTs that mean `C i`, and the last waveform to an AST that means `D`, then the
conversion succeeds, and the result means the waveform of the first true condition, else the last waveform, else `keep`. -/
theorem C38_priority {V : Type} (R : Expr → V → Prop) (truth : V → Bool) (keep : V) (hT : TernaryMeaning R truth keep) (c : CondWaves)
    (C : List (V × V)) (hC : List.Forall₂ (PartMeaning R) (c.head :: c.tail) C)
    (D : Option V) (hD : ∀ w, c.dflt = some w → ∃ d v, visitWaveform w = .ok d ∧ D = some v ∧ R d v) (hD' : c.dflt = none → D = none) :
    ∃ e, visitCondWaves c = .ok e ∧ R e (firstTrue truth (D.getD keep) C) := by
  obtain ⟨head, tail, dflt⟩ := c
  have hr := List.forall₂_reverse_iff.2 hC
  cases dflt with
  | some w =>
    obtain ⟨d, v, hd, rfl, hv⟩ := hD w rfl
    obtain ⟨e, he, hv⟩ := condLoop_spec hT true (head :: tail).reverse C.reverse d v hr (nn_waveform hd) hv
    refine ⟨e, ?_, ?_⟩
    · rw [visitCondWaves_some]
      simp only [condLoop, hd, bind, Except.bind]
      exact he
    · rw [foldl_firstTrue] at hv; exact hv
  | none =>
    have := hD' rfl
    subst this
    obtain ⟨p, L, hpL⟩ : ∃ p L, (head :: tail).reverse = p :: L := by
      cases h : (head :: tail).reverse with
      | nil => simp at h
      | cons p L => exact ⟨p, L, rfl⟩
    simp only [hpL] at hr
    obtain ⟨q, C', ⟨⟨w, h1, hw⟩, x, h2, hx⟩, h3, hq⟩ : ∃ q C', PartMeaning R p q ∧
        List.Forall₂ (PartMeaning R) L C' ∧ C.reverse = q :: C' := by
      cases hc : C.reverse with
      | nil => rw [hc] at hr; cases hr
      | cons q C' => rw [hc] at hr; cases hr with | cons ha hb => exact ⟨q, C', ha, hb, rfl⟩
    obtain ⟨e, he, hv⟩ := condLoop_spec hT false L C' (.op none .TERNARY [x, w]) _ h3 (by simp) (hT.two none x w _ _ hx hw)
    refine ⟨e, ?_, ?_⟩
    · rw [visitCondWaves_none, hpL]
      simp only [List.map_cons, condLoop, h1, h2, bind, Except.bind]
      exact he
    · have h4 := foldl_firstTrue truth keep C
      rw [hq, List.foldl_cons] at h4
      rw [h4] at hv; exact hv

theorem astEval_ternary {V : Type} (A : Alg V) (leaf : Expr → V) :
    TernaryMeaning (fun e v => astEval A leaf e = some v) A.truth A.unaffected where
  three p c t e vc vt ve hc ht he := by simp [astEval, astEvals, hc, ht, he, opMeaning]
  two p c t vc vt hc ht := by simp [astEval, astEvals, hc, ht, opMeaning]

/-- C38 with the meaning of the source: `w1 when c1 else w2 when c2 ... else wn` keeps its meaning when every waveform is one
value without delay in the supported fragment. Missing: delays, several elements (see `C38_violated_delay`), `unaffected`. -/
theorem C38_meaning_partial {V : Type} (A : Alg V) (leaf : Expr → V) (hA : Agrees A leaf) (c : CondWaves)
    (hp : ∀ p ∈ c.head :: c.tail, (∃ x, p.1 = .elems ⟨x, none⟩ [] ∧ okExpression x) ∧ okExpression p.2)
    (hd : ∀ w, c.dflt = some w → ∃ x, w = .elems ⟨x, none⟩ [] ∧ okExpression x) :
    ∃ e, visitCondWaves c = .ok e ∧ astEval A leaf e = some (evCondWaves A c) := by
  have key : ∀ w x, w = Waveform.elems ⟨x, none⟩ [] → okExpression x → ∃ e, visitWaveform w = .ok e ∧ astEval A leaf e = some (evWaveform A w) := by
    rintro w x rfl hx
    obtain ⟨e, h1, h2, -⟩ := expression_eval hA x hx
    exact ⟨e, by simp [visitWaveform, visitWaveElem, visitWaveTail, h1, bind, Except.bind], by simpa [evWaveform] using h2⟩
  refine C38_priority _ A.truth A.unaffected (astEval_ternary A leaf) c _ ?_ (c.dflt.map (evWaveform A)) ?_ (by intro h; simp [h])
  · have hall : ∀ L : List (Waveform × Expression), (∀ p ∈ L, (∃ x, p.1 = .elems ⟨x, none⟩ [] ∧ okExpression x) ∧ okExpression p.2) →
        List.Forall₂ (PartMeaning fun e v => astEval A leaf e = some v) L (L.map fun p => (evWaveform A p.1, evExpression A p.2)) := by
      intro L
      induction L with
      | nil => exact fun _ => .nil
      | cons p L ih =>
        intro h
        obtain ⟨⟨x, hx, hok⟩, hc⟩ := h p (by simp)
        obtain ⟨f, hf1, hf2, -⟩ := expression_eval hA p.2 hc
        exact .cons ⟨key p.1 x hx hok, f, hf1, hf2⟩ (ih fun q hq => h q (by simp [hq]))
    exact hall _ hp
  · intro w hw
    obtain ⟨x, hx, hok⟩ := hd w hw
    obtain ⟨e, he1, he2⟩ := key w x hx hok
    exact ⟨e, _, he1, by simp [hw], he2⟩

/-- `a when p else b when q else c` -/
def exC : CondWaves := ⟨(.elems ⟨idE (c! "a"), none⟩ [], idE (c! "p")), [(.elems ⟨idE (c! "b"), none⟩ [], idE (c! "q"))],
  some (.elems ⟨idE (c! "c"), none⟩ [])⟩

theorem ok_idE (s : Str) : okExpression (idE s) := by
  simp only [idE, idP, okExpression, okSimple, okPrimary, okName, litOk]; exact ⟨_, rfl⟩

example : (∀ p ∈ exC.head :: exC.tail, (∃ x, p.1 = .elems ⟨x, none⟩ [] ∧ okExpression x) ∧ okExpression p.2) ∧
    ∀ w, exC.dflt = some w → ∃ x, w = .elems ⟨x, none⟩ [] ∧ okExpression x := by
  refine ⟨?_, ?_⟩
  · intro p hp
    simp only [exC, List.mem_cons, List.not_mem_nil, or_false] at hp
    rcases hp with rfl | rfl <;> exact ⟨⟨_, rfl, ok_idE _⟩, ok_idE _⟩
  · intro w hw; obtain rfl := Option.some.inj hw; exact ⟨_, rfl, ok_idE _⟩

/-- Delays are dropped: `e after t` has the AST of `e`. -/
theorem C38_violated_delay (e t : Expression) : visitWaveform (.elems ⟨e, some t⟩ []) = visitWaveform (.elems ⟨e, none⟩ []) := rfl

/-- A waveform of two elements has the AST of the member access `a.b`. -/
theorem C38_violated_elements (a b : Str) : visitWaveform (.elems ⟨idE a, none⟩ [⟨idE b, none⟩]) = visitName (.dot (.lit (.ident a)) (.lit (.ident b))) := by
  simp [visitWaveform, visitWaveElem, visitWaveTail, idE, idP, visitExpression, visitSimple, visitPrimary, visitName, visitNameLit, visitSuffix,
    bind, Except.bind, pure, Except.pure]

/-! ## Procedure calls -/

/-- C62: a procedure call statement is a call of the procedure with the arguments in order; a call without arguments is a call.
(`okName` excludes external names, signatures and arguments outside the fragment of C61.) -/
theorem C62_procedure_call {V : Type} (A : Alg V) (leaf : Expr → V) (hA : Agrees A leaf) (n : Name) (h : okName n) :
    ∃ p f l, visitProcCall n = .ok (.op p .CALL (f :: l)) ∧
      match n with
      | .assoc m args => astEval A leaf f = some (evName A m) ∧ astEvals A leaf l = some (evAssocs A args)
      | .slice m r => astEval A leaf f = some (evName A m) ∧ astEvals A leaf l = some [evERange A r]
      | m => astEval A leaf f = some (evName A m) ∧ l = [] := by
  obtain ⟨e, h1, h2, -⟩ := name_eval hA n h
  cases n with
  | lit l =>
    refine ⟨none, e, [], ?_, h2, rfl⟩
    have : visitName (.lit l) = visitNameLit l := by simp [visitName]
    rw [this] at h1
    simp only [visitProcCall, this, h1, bind, Except.bind]
    cases l with
    | ident t => cases h1; rfl
    | opSymbol t => simp only [visitNameLit] at h1; obtain ⟨s, -, h1⟩ := bind_ok h1; cases h1; rfl
    | chr t => simp only [visitNameLit] at h1; obtain ⟨s, -, h1⟩ := bind_ok h1; cases h1; rfl
  | external => simp [okName] at h
  | slice m r =>
    simp only [okName] at h
    obtain ⟨en, hn1, hn2, -⟩ := name_eval hA m h.1
    obtain ⟨er, hr1, hr2⟩ := erange_eval hA r h.2
    refine ⟨none, en, [er], ?_, hn2, astEvals_one hr2⟩
    simp [visitProcCall, visitName, hn1, hr1, bind, Except.bind, pure, Except.pure, Expr.mkBin, astEval_push hn2, astEval_push hr2]
  | attr m sg d =>
    refine ⟨none, e, [], ?_, h2, rfl⟩
    simp only [visitProcCall, h1, bind, Except.bind]
    simp only [visitName] at h1; obtain ⟨a, -, h1⟩ := bind_ok h1; cases h1; rfl
  | dot m s =>
    refine ⟨none, e, [], ?_, h2, rfl⟩
    simp only [visitProcCall, h1, bind, Except.bind]
    simp only [visitName] at h1; obtain ⟨a, -, h1⟩ := bind_ok h1; obtain ⟨b, -, h1⟩ := bind_ok h1; cases h1; rfl
  | assoc m l =>
    simp only [okName] at h
    obtain ⟨en, hn1, hn2, -⟩ := name_eval hA m h.1
    obtain ⟨el, hl1, hl2⟩ := assocs_eval hA l h.2
    refine ⟨none, en, el, ?_, hn2, hl2⟩
    simp [visitProcCall, visitName, hn1, hl1, bind, Except.bind, pure, Except.pure, Expr.mkIndex]

example : okName (.assoc (.lit (.ident (c! "p"))) [.pos (.desig (.expr (idE (c! "x"))))]) := by
  simp only [okName, okAssocs, okAssoc, okActual, okDesig]
  exact ⟨⟨_, rfl⟩, ok_idE _, trivial⟩

/-- C62 for every name: the operands are the converted procedure name and the converted arguments. -/
theorem C62_procedure_call_operands (n : Name) (e : Expr) (h : visitProcCall n = .ok e) :
    ∃ p f l, e = .op p .CALL (f :: l) ∧
      match n with
      | .assoc m args => visitName m = .ok f ∧ visitAssocs args = .ok l
      | .slice m r => visitName m = .ok f ∧ ∃ x, visitERange r = .ok x ∧ l = [x]
      | m => visitName m = .ok f ∧ l = [] := by
  simp only [visitProcCall] at h
  obtain ⟨f, hf, h⟩ := bind_ok h
  cases n with
  | lit t =>
    have hf' := hf
    simp only [visitName] at hf
    cases t with
    | ident t => cases hf; cases h; exact ⟨none, _, [], rfl, hf', rfl⟩
    | opSymbol t => simp only [visitNameLit] at hf; obtain ⟨s, -, hf⟩ := bind_ok hf; cases hf; cases h; exact ⟨none, _, [], rfl, hf', rfl⟩
    | chr t => simp only [visitNameLit] at hf; obtain ⟨s, -, hf⟩ := bind_ok hf; cases hf; cases h; exact ⟨none, _, [], rfl, hf', rfl⟩
  | external =>
    have hf' := hf
    simp only [visitName] at hf; cases hf; cases h; exact ⟨none, _, [], rfl, hf', rfl⟩
  | slice m r =>
    simp only [visitName] at hf
    obtain ⟨a, ha, hf⟩ := bind_ok hf
    obtain ⟨b, hb, hf⟩ := bind_ok hf
    have h1 : a.push = [a] := by have := (nn_name ha).1; cases a <;> first | rfl | exact absurd rfl this
    have h2 : b.push = [b] := by
      obtain ⟨x, d, y⟩ := r
      simp only [visitERange] at hb
      obtain ⟨_, -, hb⟩ := bind_ok hb; obtain ⟨_, -, hb⟩ := bind_ok hb; cases hb; rfl
    cases hf
    simp only [Expr.mkBin, h1, h2] at h
    cases h
    exact ⟨none, a, [b], rfl, ha, b, hb, rfl⟩
  | attr m sg d =>
    have hf' := hf
    simp only [visitName] at hf; obtain ⟨a, ha, hf⟩ := bind_ok hf; cases hf; cases h; exact ⟨none, _, [], rfl, hf', rfl⟩
  | dot m s =>
    have hf' := hf
    simp only [visitName] at hf; obtain ⟨a, ha, hf⟩ := bind_ok hf; obtain ⟨b, hb, hf⟩ := bind_ok hf; cases hf; cases h
    exact ⟨none, _, [], rfl, hf', rfl⟩
  | assoc m l =>
    simp only [visitName] at hf; obtain ⟨a, ha, hf⟩ := bind_ok hf; obtain ⟨b, hb, hf⟩ := bind_ok hf; cases hf; cases h
    exact ⟨none, a, b, rfl, ha, hb⟩

example : ∃ e, visitProcCall (.lit (.ident (c! "p"))) = .ok e := ⟨_, by simp only [visitProcCall, visitName]; rfl⟩

end Vhdl
end Verif
