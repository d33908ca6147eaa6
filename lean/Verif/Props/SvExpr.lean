import Mathlib.Data.List.Forall2
import Verif.SvExprLemmas
/-!
# Properties of SystemVerilog expressions (C39, C40, C41, C63, C67)
-/
namespace Verif.Sv
open Verif Verif.Spec.Sv

/-! ## Values for the examples: terms over converted tokens -/

/-- Terms. -/
inductive Term
  | tok (e : Expr)
  | node (s : String) (l : List Term)

/-- The parts of a concatenation of at least two parts. -/
def Term.parts : Term → List Term
  | .tok e => [.tok e]
  | .node s l => if s = "{}" ∧ 2 ≤ l.length then l else [.node s l]

theorem Term.parts_ne (t : Term) : 1 ≤ t.parts.length := by
  cases t with
  | tok e => simp [Term.parts]
  | node s l =>
    simp only [Term.parts]
    split
    · omega
    · simp

theorem Term.parts_flatMap (l : List Term) : l.length ≤ (l.flatMap Term.parts).length := by
  induction l with
  | nil => simp
  | cons t l ih => have := t.parts_ne; simp only [List.flatMap_cons, List.length_append, List.length_cons]; omega

/-- The term algebra: the value of an expression is the expression itself (with converted tokens); nested concatenations are flat. -/
def Term.alg : Alg Term where
  ident i := .tok (.id none ((identStr i).toOption.getD []))
  kw s := .tok (.id none s)
  lit l := .tok ((visitLit l).toOption.getD .null)
  nul := .node "null" []
  flag b := .tok (.int none (.ofBig (.ofInt (if b then 1 else 0))))
  un s a := .node s [a]
  bin s a b := .node s [a, b]
  cond c t e := .node "?:" [c, t, e]
  concat l := .node "{}" (l.flatMap Term.parts)
  repl n c := .node "repl" [n, c]
  index a b := .node "[]" [a, b]
  call f l := .node "call" (f :: l)
  pattern l := .node "'{}" l
  param f l := .node "#" (f :: l)
  other s l := .node s l

theorem Term.agrees : Agrees Term.alg Term.tok where
  ident i s h _ := by simp [Term.alg, h, Except.toOption]
  kw _ _ := rfl
  lit l e _ h := by simp [Term.alg, h, Except.toOption]
  signed := rfl
  unsigned := rfl
  cat l x h := by
    have := Term.parts_flatMap l
    simp only [Term.alg, List.flatMap_cons, List.flatMap_nil, List.append_nil, List.flatMap_append]
    rw [Term.parts, if_pos ⟨rfl, by omega⟩]

/-! ## C63: meaning of expressions -/

/-- C63 (supported fragment): the AST of a SystemVerilog expression has the meaning of the expression, whatever the operators mean.
Missing: what `okExp` excludes, see the `C63_violated` theorems. -/
theorem C63_expression_meaning_partial {V : Type} (A : Alg V) (leaf : Expr → V) (hA : Agrees A leaf) (x : Exp) (h : okExp x) :
    ∃ e, visitExp x = .ok e ∧ astEval A leaf e = some (evExp A x) := exp_eval hA x h

/-- C63 for data types. -/
theorem C63_type_meaning_partial {V : Type} (A : Alg V) (leaf : Expr → V) (hA : Agrees A leaf) (x : DType) (h : okDType x) :
    ∃ e, visitDType x = .ok e ∧ astEval A leaf e = some (evDType A x) := dtype_eval hA x h

/-- C63: no two expressions with different meanings have the same AST. -/
theorem C63_expression_injective_partial (x y : Exp) (hx : okExp x) (hy : okExp y) (h : visitExp x = visitExp y) :
    evExp Term.alg x = evExp Term.alg y := by
  obtain ⟨e, h1, h2⟩ := exp_eval Term.agrees x hx
  obtain ⟨f, h3, h4⟩ := exp_eval Term.agrees y hy
  rw [h1, h3] at h
  cases h
  exact Option.some.inj (h2.symm.trans h4)

/-- C63: no two data types with different meanings have the same AST. -/
theorem C63_type_injective_partial (x y : DType) (hx : okDType x) (hy : okDType y) (h : visitDType x = visitDType y) :
    evDType Term.alg x = evDType Term.alg y := by
  obtain ⟨e, h1, h2⟩ := dtype_eval Term.agrees x hx
  obtain ⟨f, h3, h4⟩ := dtype_eval Term.agrees y hy
  rw [h1, h3] at h
  cases h
  exact Option.some.inj (h2.symm.trans h4)

/-- An identifier. -/
def idI (s : Str) : Ident := ⟨false, s⟩
/-- An identifier as a primary. -/
def idP (s : Str) : Prim := .path (.mk false .items [.mk (idI s) .none])
/-- An identifier as an expression. -/
def idE (s : Str) : Exp := .prim (idP s)

/-- `a[3 +: 2] + $signed({b, {2{c}}}) ? pkg::f(.x(d), .y()) : '{default: 1}` -/
def exE : Exp :=
  .cond (.bin (.prim (.index (idP (c! "a")) (.plus (.prim (.lit (.integral (.unsigned (c! "3"))))) (.prim (.lit (.integral (.unsigned (c! "2"))))))))
      .add (.prim (.tfCall (c! "$signed") [.expr (.prim (.concat (.list [idE (c! "b"), .prim (.concat (.repl (.prim (.lit (.integral (.unsigned (c! "2")))))
        (.list [idE (c! "c")])))])))] false)))
    false
    (.prim (.call (.path (.mk false .items [.mk (idI (c! "pkg")) .none, .mk (idI (c! "f")) .none])) none
      [.named (idI (c! "x")) (idE (c! "d")), .comma, .namedEmpty (idI (c! "y"))] false))
    (.prim (.assig false (.keyed [.mk .dflt (.prim (.lit (.integral (.unsigned (c! "1")))))])))

example : okExp exE := by
  simp only [exE, idE, idP, idI, okExp, okPrim, okPath, okPathItems, okPathItem, okPVA, okARange, okConcat, okExps, okArgs, okPattern, okKVs, okKV,
    okKey, okIdent, okLit, identStr, visitLit, svIntegral]
  have hk : ∀ s : Str, isKw s = false → ∃ s', (if False then svEscapedId s else Except.ok s) = Except.ok s' ∧ isKw s' = false :=
    fun s h => ⟨s, by simp, h⟩
  simp [svUnsigned, bind, Except.bind, pure, Except.pure]
  decide +kernel

theorem Term.bin_ne (s : String) (a b : Term) : Term.node s [a, b] ≠ a := by
  intro h; have := congrArg sizeOf h; simp at this; omega

theorem Term.un_ne (s : String) (a : Term) : Term.node s [a] ≠ a := by
  intro h; have := congrArg sizeOf h; simp at this; omega

theorem Term.node_ne (s : String) (a : Term) (l : List Term) : Term.node s (a :: l) ≠ a := by
  intro h; have := congrArg sizeOf h; simp at this; omega

/-- C63 is violated by `<->`: `a <-> b` has the AST of `a -> b`. -/
theorem C63_violated_equivalence (a b : Exp) : visitExp (.bin a .equiv b) = visitExp (.bin a .impl b) ∧
    evExp Term.alg (.bin a .equiv b) ≠ evExp Term.alg (.bin a .impl b) := by
  constructor
  · simp [visitExp, BinOp.toOp]
  · simp [evExp, BinOp.sym, Term.alg]

/-- C63 is violated by `min:typ:max`: only the first expression is kept. -/
theorem C63_violated_mintypmax (a b c : Exp) : visitPrim (.par (.three a b c)) = visitPrim (.par (.one a)) ∧
    evPrim Term.alg (.par (.three a b c)) ≠ evPrim Term.alg (.par (.one a)) := by
  constructor
  · simp [visitPrim, visitMTM]
  · simp only [evPrim, evMTM]; exact Term.node_ne _ _ _

/-- C63 is violated by one-element concatenations: `{e}` (a self-determined, unsigned value) has the AST of `e`. -/
theorem C63_violated_single_concat (e : Exp) : visitPrim (.concat (.list [e])) = visitExp e ∧
    ((∀ l, evExp Term.alg e ≠ .node "{}" l) → evPrim Term.alg (.concat (.list [e])) ≠ evExp Term.alg e) := by
  constructor
  · simp only [visitPrim, visitConcat, visitExps]
    cases visitExp e <;> rfl
  · intro h he
    refine h ((evExps Term.alg [e]).flatMap Term.parts) ?_
    rw [← he]
    simp only [evPrim, evConcat]; rfl

example (a b : Exp) (l : List Term) : evExp Term.alg (.bin a .add b) ≠ .node "{}" l := by
  simp [evExp, BinOp.sym, Term.alg]

/-- C63 is violated by the names of array methods: all methods give the same AST. -/
theorem C63_violated_array_method (p : Prim) (m m' : Str) : visitPrim (.methodNoArgs p m) = visitPrim (.methodNoArgs p m') := by
  simp only [visitPrim]

/-- The calls `a.m` and `a.m'` of different array methods mean different things. -/
theorem C63_violated_array_method_meaning (p : Prim) (m m' : Str) (h : m ≠ m') :
    evPrim Term.alg (.methodNoArgs p m) ≠ evPrim Term.alg (.methodNoArgs p m') := by
  simp [evPrim, Term.alg, h]

/-- C63 is violated by calls of array methods and `with` clauses: both are dropped. -/
theorem C63_violated_with (p : Prim) (m : Option Str) (args : List Arg) (w : Bool) :
    visitPrim (.call p m args w) = visitPrim (.call p none args false) := by
  simp only [visitPrim]

/-- C63 is violated by `p with (e)`: the expression is dropped. -/
theorem C63_violated_callWith (p : Prim) (m : Option Str) (e e' : Exp) : visitPrim (.callWith p m e) = visitPrim (.callWith p m e') := by
  simp only [visitPrim]

/-- C63 is violated by clocking events and by types of assignment patterns. -/
theorem C63_violated_dropped (f : Str) (args : List Arg) (a : Pattern) :
    visitPrim (.tfCall f args true) = visitPrim (.tfCall f args false) ∧ visitPrim (.assig true a) = visitPrim (.assig false a) := by
  constructor <;> simp only [visitPrim]

/-- C63 is violated by `virtual` interfaces, and by `#(.p())`, which has the AST of `#(.p(null))`. -/
theorem C63_violated_types (i : Ident) : visitDType (.virtual i .none none) = visitDType (.path (.mk false .items [.mk i .none]) []) ∧
    visitNamedP (.empty i) = visitNamedP (.val i (.mtm (.one (.prim (.lit .null))))) := by
  constructor
  · simp only [visitDType, visitPVA, visitPath, visitPathItems, visitPathItem, visitVDims, visitPathHead, visitIdent]
    cases identStr i <;> rfl
  · simp only [visitNamedP, visitPExpr, visitMTM, visitExp, visitPrim, visitLit]
    cases visitIdent i <;> rfl

/-- C63 is violated by dimensions: `logic []` (and `logic [*]`) has the AST of `logic`; `t [*]` has the AST of `t []`. -/
theorem C63_violated_dimensions (kw : Str) (s : Sign) (l : List VDim) (t : Expr) :
    visitDType (.prim (.vec kw s) [.empty]) = visitDType (.prim (.vec kw s) []) ∧
    visitDType (.prim (.vec kw s) [.star]) = visitDType (.prim (.vec kw s) []) ∧
    visitVDims false t (.star :: l) = visitVDims false t (.empty :: l) := by
  refine ⟨?_, ?_, ?_⟩
  · simp [visitDType, visitVDims, visitVDim, visitDPrim, mkWireT, isOpenWire, Expr.mkParam, fillWidth, bind, Except.bind]
  · simp [visitDType, visitVDims, visitVDim, visitDPrim, mkWireT, isOpenWire, Expr.mkParam, fillWidth, bind, Except.bind]
  · simp [visitVDims, visitVDim]

/-! ## C67: constructs that are not supported -/

/-- C67 is violated: an expression with `&&&` reaches `assert(false)`, whatever its operands are. -/
theorem C67_violated_triple_and (a b : Exp) (m1 m2 : Bool) : visitExp (.tripleAnd a m1 b m2) = .error .ub := by
  simp only [visitExp]

/-- C67 is violated: an assignment pattern as target fails an assertion, wherever it stands in the target. -/
theorem C67_violated_pattern_target (l₁ l₂ : List LVal) (e : List Expr) (h : visitLVals l₁ = .ok e) :
    visitLVal (.brace (l₁ ++ .pattern :: l₂)) = .error .ub := by
  have : ∀ l₁ e, visitLVals l₁ = .ok e → visitLVals (l₁ ++ .pattern :: l₂) = .error .ub := by
    intro l₁
    induction l₁ with
    | nil => intro e _; simp [visitLVals, visitLVal, bind, Except.bind]
    | cons x l ih =>
      intro e he
      simp only [visitLVals] at he
      simp only [List.cons_append, visitLVals]
      cases hx : visitLVal x with
      | error y => rw [hx] at he; cases he
      | ok y =>
        rw [hx] at he
        cases hl : visitLVals l with
        | error z => rw [hl] at he; cases he
        | ok z => simp [ih z hl, bind, Except.bind]
  simp [visitLVal, this l₁ e h, bind, Except.bind]

example : visitLVals [.hier (.mk (.mk false .items [.mk (idI (c! "a")) .none]) [] [] .none)] = .ok [.id none (c! "a")] := by
  simp [visitLVals, visitLVal, visitHSel, visitPath, visitPathItems, visitPathItem, visitPathHead, visitIdent, identStr, idI, visitPVA, visitBits,
    visitSel, appendExpr, bind, Except.bind, pure, Except.pure]

/-! ## C39: concatenations -/

/-- A relation between ASTs and bit strings that understands `CONCAT` and `REPL_CONCAT`; `N` are the values of the counts. -/
structure Spec.BitsMeaning (R : Expr → List Bool → Prop) (N : Expr → Nat → Prop) : Prop where
  notNull : ∀ b, ¬ R .null b
  cntNotNull : ∀ n, ¬ N .null n
  cat : ∀ p a b x y, R a x → R b y → R (.op p .CONCAT [a, b]) (x ++ y)
  repl : ∀ p n c k x, N n k → R c x → R (.op p .REPL_CONCAT [n, c]) (List.replicate k x).flatten

theorem push_of_ne {e : Expr} (h : e ≠ .null) : e.push = [e] := by
  cases e <;> first | rfl | exact absurd rfl h

theorem append_of_ne {e : Expr} (h : e ≠ .null) (o : OpType) (x : Expr) : appendExpr e o x = .mkBin none e o x := by
  cases e <;> first | rfl | exact absurd rfl h

theorem visitExps_forall₂ {R : Expr → List Bool → Prop} : ∀ (l : List Exp) (bs : List (List Bool)),
    List.Forall₂ (fun e b => ∃ x, visitExp e = .ok x ∧ R x b) l bs → ∃ xs, visitExps l = .ok xs ∧ List.Forall₂ R xs bs
  | [], [], _ => ⟨[], by simp only [visitExps], .nil⟩
  | e :: l, b :: bs, h => by
    obtain ⟨⟨x, h1, h2⟩, h3⟩ := List.forall₂_cons.1 h
    obtain ⟨xs, h4, h5⟩ := visitExps_forall₂ l bs h3
    exact ⟨x :: xs, by simp [visitExps, h1, h4, bind, Except.bind, pure, Except.pure], .cons h2 h5⟩

theorem reduce_bits {R : Expr → List Bool → Prop} {N : Expr → Nat → Prop} (hR : Spec.BitsMeaning R N) :
    ∀ (xs : List Expr) (bs : List (List Bool)) (r : Expr) (b : List Bool), List.Forall₂ R xs bs → R r b →
      R (reduceE .CONCAT r xs) (b ++ bs.flatten)
  | [], [], r, b, _, hr => by simpa [reduceE] using hr
  | x :: xs, y :: bs, r, b, h, hr => by
    obtain ⟨h1, h2⟩ := List.forall₂_cons.1 h
    have hn : r ≠ .null := by rintro rfl; exact hR.notNull _ hr
    have hx : x ≠ .null := by rintro rfl; exact hR.notNull _ h1
    have := reduce_bits hR xs bs (appendExpr r .CONCAT x) (b ++ y) h2
      (by rw [append_of_ne hn, Expr.mkBin, push_of_ne hn, push_of_ne hx]; exact hR.cat _ _ _ _ _ hr h1)
    simpa [reduceE] using this

/-- C39 (concatenations with at least one part): if the parts are converted to ASTs with the bits `bs`, then `{e1, ..., en}` is
converted, and the bits of the result are those of the parts in order; whatever the parts are, and for every interpretation of the
AST that understands concatenation. Missing: `{}`, see `C39_violated_empty`. -/
theorem C39_concatenation_partial (R : Expr → List Bool → Prop) (N : Expr → Nat → Prop) (hR : Spec.BitsMeaning R N) (es : List Exp)
    (bs : List (List Bool)) (hne : es ≠ []) (h : List.Forall₂ (fun e b => ∃ x, visitExp e = .ok x ∧ R x b) es bs) :
    ∃ x, visitPrim (.concat (.list es)) = .ok x ∧ R x bs.flatten := by
  obtain ⟨xs, h1, h2⟩ := visitExps_forall₂ es bs h
  refine ⟨reduceE .CONCAT .null xs, by simp [visitPrim, visitConcat, h1, bind, Except.bind, pure, Except.pure], ?_⟩
  cases h2 with
  | nil =>
    cases h
    exact absurd rfl hne
  | cons h3 h4 => simpa [reduceE, appendExpr] using reduce_bits hR _ _ _ _ h4 h3

/-- C39 for replications: `{n {e1, ..., ek}}` has `n` times the bits of the parts in order. -/
theorem C39_replication (R : Expr → List Bool → Prop) (N : Expr → Nat → Prop) (hR : Spec.BitsMeaning R N) (n : Exp) (en : Expr) (k : Nat)
    (hn : visitExp n = .ok en) (hk : N en k) (es : List Exp) (bs : List (List Bool)) (hne : es ≠ [])
    (h : List.Forall₂ (fun e b => ∃ x, visitExp e = .ok x ∧ R x b) es bs) :
    ∃ x, visitPrim (.concat (.repl n (.list es))) = .ok x ∧ R x (List.replicate k bs.flatten).flatten := by
  obtain ⟨x, h1, h2⟩ := C39_concatenation_partial R N hR es bs hne h
  simp only [visitPrim] at h1
  refine ⟨.mkBin none en .REPL_CONCAT x, by simp only [visitPrim]; rw [visitConcat, hn, h1]; rfl, ?_⟩
  rw [Expr.mkBin, push_of_ne (by rintro rfl; exact hR.cntNotNull _ hk), push_of_ne (by rintro rfl; exact hR.notNull _ h2)]
  exact hR.repl _ _ _ _ _ hk h2

/-- Bits of an AST over one-bit variables that are all 0 and literals, as an inductive relation. -/
inductive ExBits : Expr → List Bool → Prop
  | id (p s) : ExBits (.id p s) [s.length % 2 == 0]
  | cat (p a b x y) : ExBits a x → ExBits b y → ExBits (.op p .CONCAT [a, b]) (x ++ y)
  | repl (p q v c k x) : v = IntVal.ofStr [Char.ofNat (48 + k)] 10 → ExBits c x → ExBits (.op p .REPL_CONCAT [.int q v, c]) (List.replicate k x).flatten

example : Spec.BitsMeaning ExBits (fun e k => ∃ q, e = .int q (IntVal.ofStr [Char.ofNat (48 + k)] 10)) where
  notNull _ h := by cases h
  cntNotNull _ h := by obtain ⟨q, h⟩ := h; cases h
  cat p a b x y := .cat p a b x y
  repl p n c k x := by rintro ⟨q, rfl⟩ h; exact .repl p q _ c k x rfl h

theorem visit_idE (s : Str) : visitExp (idE s) = .ok (.id none s) := by
  simp [idE, idP, idI, visitExp, visitPrim, visitPath, visitPathItems, visitPathItem, visitPathHead, visitIdent, identStr, visitPVA, appendExpr,
    bind, Except.bind, pure, Except.pure]

example : List.Forall₂ (fun e b => ∃ x, visitExp e = .ok x ∧ ExBits x b) [idE (c! "a"), idE (c! "bc")] [[false], [true]] :=
  .cons ⟨_, visit_idE _, .id _ _⟩ (.cons ⟨_, visit_idE _, .id _ _⟩ .nil)

/-- C39 is violated for `{}`: the result is a null pointer, and as operand of an operator it disappears: `e + {}` becomes an addition
with one operand. -/
theorem C39_violated_empty (e : Exp) (x : Expr) (h : visitExp e = .ok x) (hx : x ≠ .null) (o : BinOp) :
    visitPrim (.concat (.list [])) = .ok .null ∧ visitExp (.bin e o (.prim (.concat (.list [])))) = .ok (.op none o.toOp [x]) := by
  have h0 : visitPrim (.concat (.list [])) = .ok .null := by
    simp [visitPrim, visitConcat, visitExps, reduceE, bind, Except.bind, pure, Except.pure]
  refine ⟨h0, ?_⟩
  simp only [visitExp, h, h0, bind, Except.bind, pure, Except.pure, Expr.mkBin, push_of_ne hx]; rfl

example : visitExp (idE (c! "a")) = .ok (.id none (c! "a")) := visit_idE _

/-! ## C40: targets of assignments -/

/-- C40 (targets without member access): the AST of the target has the meaning of the target. Missing: members, see
`C40_violated_member`. -/
theorem C40_target_meaning_partial {V : Type} (A : Alg V) (leaf : Expr → V) (hA : Agrees A leaf) (x : LVal) (h : okLVal x) :
    ∃ e, visitLVal x = .ok e ∧ astEval A leaf e = some (evLVal A x) := lval_eval hA x h

/-- `{pkg::a[i][7:0], b}` -/
example : okLVal (.brace [.hier (.mk (.mk false .items [.mk (idI (c! "pkg")) .none, .mk (idI (c! "a")) .none]) [idE (c! "i")] []
      (.range (.prim (.lit (.integral (.unsigned (c! "7"))))) (.prim (.lit (.integral (.unsigned (c! "0"))))))),
    .hier (.mk (.mk false .items [.mk (idI (c! "b")) .none]) [] [] .none)]) := by
  simp [okLVal, okLVals, okHSel, okPath, okPathItems, okPathItem, okPVA, okExps, okExp, okPrim, okSel, okIdent, okLit, idE, idP, idI, identStr, visitLit,
    svIntegral, svUnsigned, bind, Except.bind, pure, Except.pure]
  decide +kernel

/-- C40 is violated: all members are dropped, `p[bits].m1.m2...[sel]` has the AST of `p[bits][sel]`. -/
theorem C40_violated_member (p : Path) (bits : List Exp) (ms : List Member) (s : Sel) :
    visitLVal (.hier (.mk p bits ms s)) = visitLVal (.hier (.mk p bits [] s)) := by
  simp only [visitLVal, visitHSel]

/-- `p.i` and `p` are different targets. -/
theorem C40_violated_member_meaning (p : Path) (i : Ident) :
    evLVal Term.alg (.hier (.mk p [] [.mk i []] .none)) ≠ evLVal Term.alg (.hier (.mk p [] [] .none)) := by
  simp only [evLVal, evHSel, evBits, evMembers, evMember, evSel]
  exact Term.bin_ne _ _ _

/-! ## C41: arguments of calls -/

/-- The source of an argument list: the arguments (`none`: omitted) with commas between them. -/
def Spec.argTokens : List (Option Arg) → List Arg
  | [] => []
  | [a] => a.toList
  | a :: b :: l => a.toList ++ .comma :: argTokens (b :: l)

/-- The AST of an argument: `void` for an omitted one. -/
inductive Spec.ArgAst : Option Arg → Expr → Prop
  | omitted : ArgAst none (.id none (c! "void"))
  | pos (e x) : visitExp e = .ok x → ArgAst (some (.expr e)) x
  | namedEmpty (i s) : identStr i = .ok s → ArgAst (some (.namedEmpty i)) (.op none .MAP_ASSOCIATION [.id none s, .id none (c! "void")])
  | named (i s e x) : identStr i = .ok s → visitExp e = .ok x → x ≠ .null →
      ArgAst (some (.named i e)) (.op none .MAP_ASSOCIATION [.id none s, x])

theorem visitArgs_some {a : Arg} {x : Expr} (h : Spec.ArgAst (some a) x) (b : Bool) (l : List Arg) (xs : List Expr)
    (hl : visitArgs false l = .ok xs) : visitArgs b (a :: l) = .ok (x :: xs) := by
  cases h with
  | pos e x h => simp [visitArgs, h, hl, bind, Except.bind, pure, Except.pure]
  | namedEmpty i s h => simp [visitArgs, visitIdent, h, hl, bind, Except.bind, pure, Except.pure, Expr.mkBin, Expr.push]
  | named i s e x h h2 h3 => simp [visitArgs, visitIdent, h, h2, hl, bind, Except.bind, pure, Except.pure, Expr.mkBin, push_of_ne h3]; rfl

/-- The last argument is omitted. -/
def lastOmitted : List (Option Arg) → Bool
  | [] => false
  | [a] => a.isNone
  | _ :: b :: l => lastOmitted (b :: l)

theorem lastOmitted_iff : ∀ l, lastOmitted l = true ↔ l.getLast? = some none
  | [] => by simp [lastOmitted]
  | [a] => by simp [lastOmitted]
  | _ :: b :: l => by simp [lastOmitted, lastOmitted_iff (b :: l), List.getLast?_cons_cons]

/-- The AST list for an argument list whose last argument is given, resp. omitted. -/
theorem visitArgs_tokens : ∀ (l : List (Option Arg)) (xs : List Expr), List.Forall₂ Spec.ArgAst l xs →
    visitArgs true (Spec.argTokens l) = .ok (bif lastOmitted l then xs.dropLast else xs)
  | [], [], _ => by simp [Spec.argTokens, visitArgs]
  | [none], [x], h => by simp [Spec.argTokens, visitArgs, lastOmitted]
  | [some a], [x], h => by
    have := visitArgs_some (List.forall₂_cons.1 h).1 true [] [] (by simp only [visitArgs])
    simpa [Spec.argTokens, lastOmitted] using this
  | a :: b :: l, x :: y :: xs, h => by
    obtain ⟨h1, h2⟩ := List.forall₂_cons.1 h
    have ih := visitArgs_tokens (b :: l) (y :: xs) h2
    have e1 : lastOmitted (a :: b :: l) = lastOmitted (b :: l) := rfl
    have e2 : (bif lastOmitted (b :: l) then (x :: y :: xs).dropLast else x :: y :: xs) =
        x :: (bif lastOmitted (b :: l) then (y :: xs).dropLast else y :: xs) := by cases lastOmitted (b :: l) <;> simp [List.dropLast]
    rw [e1, e2]
    cases a with
    | none =>
      cases h1
      simp only [Spec.argTokens, Option.toList, List.nil_append, visitArgs, ih, bind, Except.bind, pure, Except.pure, if_pos]
    | some a =>
      simp only [Spec.argTokens, Option.toList, List.cons_append, List.nil_append]
      exact visitArgs_some h1 true _ _ (by simp [visitArgs, ih, bind, Except.bind, pure, Except.pure])

/-- C41 (the last argument is given): the AST of a call has the callee as first operand and then exactly the arguments of the source
at their positions, with `void` for omitted arguments. Missing: omitted last arguments and calls without arguments, see
`C41_violated_last`, `C41_violated_no_arguments`. -/
theorem C41_arguments_partial (p : Prim) (f : Expr) (l : List (Option Arg)) (xs : List Expr) (hp : visitPrim p = .ok f)
    (h : List.Forall₂ Spec.ArgAst l xs) (hl : l.getLast? ≠ some none) :
    visitPrim (.call p none (Spec.argTokens l) false) = .ok (.op none .CALL (f :: xs)) := by
  have := visitArgs_tokens l xs h
  rw [Bool.eq_false_iff.2 (fun h => hl ((lastOmitted_iff l).1 h)), cond_false] at this
  simp [visitPrim, hp, this, bind, Except.bind, pure, Except.pure, Expr.mkCall]

/-- C41 for system functions. -/
theorem C41_system_arguments_partial (f : Str) (l : List (Option Arg)) (xs : List Expr)
    (h : List.Forall₂ Spec.ArgAst l xs) (hl : l.getLast? ≠ some none) :
    visitPrim (.tfCall f (Spec.argTokens l) false) = .ok (.op none .CALL (.id none f :: xs)) ∧
    visitPrim (.tfCall0 f) = .ok (.op none .CALL [.id none f]) := by
  have := visitArgs_tokens l xs h
  rw [Bool.eq_false_iff.2 (fun h => hl ((lastOmitted_iff l).1 h)), cond_false] at this
  constructor
  · simp [visitPrim, this, bind, Except.bind, pure, Except.pure, Expr.mkCall]
  · simp [visitPrim, Expr.mkCall]

/-- `f(a,,.x())` -/
example : List.Forall₂ Spec.ArgAst [some (.expr (idE (c! "a"))), none, some (.namedEmpty (idI (c! "x")))]
    [.id none (c! "a"), .id none (c! "void"), .op none .MAP_ASSOCIATION [.id none (c! "x"), .id none (c! "void")]] :=
  .cons (.pos _ _ (visit_idE _)) (.cons .omitted (.cons (.namedEmpty _ _ rfl) .nil))

/-- C41 is violated by an omitted last argument: it is lost, `f(l,)` has the AST of `f(l)`. -/
theorem C41_violated_last (p : Prim) (l : List (Option Arg)) (xs : List Expr) (h : List.Forall₂ Spec.ArgAst l xs)
    (hl : l.getLast? ≠ some none) :
    visitPrim (.call p none (Spec.argTokens (l ++ [none])) false) = visitPrim (.call p none (Spec.argTokens l) false) := by
  have h1 := visitArgs_tokens l xs h
  have h2 := visitArgs_tokens (l ++ [none]) (xs ++ [.id none (c! "void")]) (List.rel_append h (.cons .omitted .nil))
  rw [Bool.eq_false_iff.2 (fun h => hl ((lastOmitted_iff l).1 h)), cond_false] at h1
  rw [(lastOmitted_iff _).2 (by simp), cond_true, List.dropLast_concat] at h2
  simp only [visitPrim, h1, h2]

/-- C41 is violated by calls without arguments: `p()` has the AST of `p`, whatever `p` is. -/
theorem C41_violated_no_arguments (p : Prim) : visitPrim (.call0 p none false) = visitPrim p ∧
    ((∀ f, p ≠ .tfCall0 f) → evPrim Term.alg (.call0 p none false) ≠ evPrim Term.alg p) := by
  constructor
  · simp only [visitPrim]
  · intro h
    have : evPrim Term.alg (.call0 p none false) = .node "call" [evPrim Term.alg p] := by
      cases p <;> first | exact absurd rfl (h _) | rfl
    rw [this]
    exact Term.un_ne _ _

end Verif.Sv
