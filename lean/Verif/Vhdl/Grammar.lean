import Verif.Vhdl.Token
import Verif.Vhdl.Tree
/-!
# Model of the parser for VHDL expressions (grammars/vhdlParser.g4)

Every rule of the grammar that an expression can reach is one definition. The parser is generated by ANTLR 4 (not part of
/repo); its ALL(*) prediction takes at every decision the first alternative with which the whole input can still be
parsed. So the tree it builds is the first one in the order of the decisions. A rule is modelled by the list of all
its parses of a beginning of the tokens in exactly this order (`P`): alternatives in the order of the grammar, `x?` and
`x*` first with one more `x`. The parse ANTLR takes is the first one whose rest can be parsed by what follows the rule.

A rule that calls itself at its left end is rewritten by ANTLR to a loop with precedences: alternative number `i` of `n` has
precedence `n - i + 1`; the right operand of a binary operator is parsed with a precedence one higher, the operand of
a prefix operator with the same precedence; in a rule called with precedence `p` the loop goes on with the operators of
precedence at least `p` (`precpred(_ctx, i)`).

The rules call each other; `Env` are the rules as far as they are called recursively, and `env n` are the rules with recursion
to depth `n`.
-/
namespace Verif.Vhdl

/-- The parses of a beginning of the tokens with the rest of the tokens, in the order in which ANTLR prefers them. -/
def P (α : Type) : Type := List VTok → List (α × List VTok)

namespace P
variable {α β : Type}

/-- The empty rule. -/
def ret (a : α) : P α := fun ts => [(a, ts)]
/-- Sequence. -/
def bnd (p : P α) (f : α → P β) : P β := fun ts => (p ts).flatMap fun x => f x.1 x.2
instance : Monad P where
  pure := ret
  bind := bnd
/-- Alternatives: the first one is preferred. -/
def or (p q : P α) : P α := fun ts => p ts ++ q ts
/-- No parse. -/
def fail : P α := fun _ => []
/-- A list of alternatives. -/
def alts : List (P α) → P α
  | [] => fail
  | [p] => p
  | p :: l => or p (alts l)
/-- A token of a type, the result is its text. -/
def tok (t : VT) : P Str
  | [] => []
  | x :: r => if x.ty = t then [(x.text, r)] else []
/-- `p?` -/
def opt (p : P α) : P (Option α) := or (p >>= fun a => pure (some a)) (pure none)
/-- `p*` at most `n` times. -/
def manyN (p : P α) : Nat → P (List α)
  | 0 => pure []
  | n + 1 => or (p >>= fun a => manyN p n >>= fun l => pure (a :: l)) (pure [])
/-- `p*` for a rule that uses up tokens. -/
def many (p : P α) : P (List α) := fun ts => manyN p ts.length ts
/-- The loop of a left recursive rule, at most `n` times: `f a` parses what can follow the tree `a` and gives the bigger tree. -/
def loopN (f : α → P α) : Nat → α → P α
  | 0, a => pure a
  | n + 1, a => or (f a >>= loopN f n) (pure a)
/-- The loop of a left recursive rule. -/
def loop (f : α → P α) (a : α) : P α := fun ts => loopN f ts.length a ts
/-- `p (sep p)*` -/
def sepBy (sep : VT) (p : P α) : P (List α) := do
  let a ← p
  let l ← many (do let _ ← tok sep; p)
  return a :: l
/-- A choice between tokens. -/
def toks (l : List (VT × α)) : P α := alts (l.map fun x => tok x.1 >>= fun _ => pure x.2)
end P

open P

/-- The rules which call themselves (also through others). -/
structure Env where
  name : P Name
  expression : Nat → P Expression
  simple : Nat → P Simple
  subInd : P SubInd
  elemC : P ElemC
  resol : P Unit

/-- line 1046. -/
def identifier : P Str := P.or (tok .BASIC_IDENTIFIER) (tok .EXTENDED_IDENTIFIER)

/-- lines 116-121, 246. -/
def nameLit : P NameLit := alts [
  identifier >>= fun t => pure (.ident t),
  tok .STRING_LITERAL >>= fun t => pure (.opSymbol t),
  tok .CHARACTER_LITERAL >>= fun t => pure (.chr t)]

/-- lines 8-115: all keywords. -/
def anyKeyword : P Str := alts (Kw.all.map fun k => tok (.kw k))

/-- line 629. -/
def attributeDesignator : P Str := P.or identifier anyKeyword

/-- lines 142-145. -/
def suffix : P Suffix := P.or (nameLit >>= fun l => pure (.lit l)) (tok (.kw .ALL) >>= fun _ => pure .all)

/-- line 297; `true`: `downto`. -/
def direction : P Bool := toks [(.kw .TO, false), (.kw .DOWNTO, true)]

/-- lines 147-149. -/
def explicitRange (E : Env) : P ERange := do
  let a ← E.simple 0
  let d ← direction
  let b ← E.simple 0
  return .mk a d b

/-- lines 132-134. -/
def nameSlicePart (E : Env) : P ERange := do
  let _ ← tok .LPAREN
  let r ← explicitRange E
  let _ ← tok .RPAREN
  return r

/-- line 261. -/
def signature (E : Env) : P Unit := do
  let _ ← tok .LSQUARE_BR
  let _ ← opt (sepBy .COMMA E.name)
  let _ ← opt (do let _ ← tok (.kw .RETURN); E.name)
  let _ ← tok .RSQUARE_BR
  return ()

/-- lines 135-137: is there a signature, and the designator. -/
def nameAttributePart (E : Env) : P (Bool × Str) := do
  let s ← opt (signature E)
  let _ ← tok .APOSTROPHE
  let d ← attributeDesignator
  return (s.isSome, d)

/-- lines 512-516. -/
def actualDesignator (E : Env) : P Desig := alts [
  do let _ ← opt (tok (.kw .INERTIAL)); let e ← E.expression 0; return .expr e,
  E.subInd >>= fun s => pure (.sub s),
  tok (.kw .OPEN) >>= fun _ => pure .opn]

/-- lines 508-511. -/
def actualPart (E : Env) : P Actual := P.or
  (do let n ← E.name; let _ ← tok .LPAREN; let d ← actualDesignator E; let _ ← tok .RPAREN; return .conv n d)
  (actualDesignator E >>= fun d => pure (.desig d))

/-- lines 504-506. -/
def formalPart (E : Env) : P (Name × Option Name) := do
  let n ← E.name
  let g ← opt (do let _ ← tok .LPAREN; let g ← E.name; let _ ← tok .RPAREN; return g)
  return (n, g)

/-- An association element from its parts. -/
def mkAssoc : Option (Name × Option Name) → Actual → Assoc
  | none, a => .pos a
  | some (f, none), a => .named f a
  | some (f, some g), a => .namedConv f g a

/-- lines 501-503. -/
def associationElement (E : Env) : P Assoc := do
  let f ← opt (do let f ← formalPart E; let _ ← tok .ARROW; return f)
  let a ← actualPart E
  return mkAssoc f a

/-- lines 498-500. -/
def associationList (E : Env) : P (List Assoc) := do
  let _ ← tok .LPAREN
  let l ← sepBy .COMMA (associationElement E)
  let _ ← tok .RPAREN
  return l

/-- lines 633-645. -/
def partialPathname (E : Env) : P Unit := do
  let _ ← many (do
    let _ ← identifier
    let _ ← opt (do let _ ← tok .LPAREN; let _ ← E.expression 0; let _ ← tok .RPAREN; return ())
    let _ ← tok .DOT
    return ())
  let _ ← identifier
  return ()

/-- lines 633-645. -/
def externalPathname (E : Env) : P Unit := alts [
  do
    let _ ← tok .AT
    let _ ← identifier
    let _ ← tok .DOT
    let _ ← identifier
    let _ ← tok .DOT
    let _ ← identifier
    let _ ← many (do let _ ← tok .DOT; identifier)
    return (),
  do let _ ← tok .DOT; partialPathname E,
  do let _ ← many (do let _ ← tok .UP; tok .DOT); partialPathname E]

/-- lines 630-632. -/
def externalName (E : Env) : P Name := do
  let _ ← tok .SHIFT_LEFT
  let _ ← toks [(.kw .VARIABLE, ()), (.kw .CONSTANT, ()), (.kw .SIGNAL, ())]
  let _ ← externalPathname E
  let _ ← tok .COLON
  let _ ← E.subInd
  let _ ← tok .SHIFT_RIGHT
  return .external

/-- lines 122-131: what can follow a name inside of a name. -/
def namePart (E : Env) (n : Name) : P Name := alts [
  nameSlicePart E >>= fun r => pure (.slice n r),
  nameAttributePart E >>= fun x => pure (.attr n x.1 x.2),
  associationList E >>= fun l => pure (.assoc n l),
  do let _ ← tok .DOT; let s ← suffix; return .dot n s]

/-- lines 122-131. -/
def name (E : Env) : P Name := do
  let n ← P.or (nameLit >>= fun l => pure (.lit l)) (externalName E)
  loop (namePart E) n

/-- lines 293-296, 138-140. -/
def range (E : Env) : P Range := P.or
  (do let n ← E.name; let x ← nameAttributePart E; return .attr n x.1 x.2)
  (explicitRange E >>= fun r => pure (.expl r))

/-- line 334. -/
def discreteRange (E : Env) : P Discr :=
  P.or (E.subInd >>= fun s => pure (.sub s)) (range E >>= fun r => pure (.range r))

/-- lines 328-333. -/
def arrayConstraint (E : Env) : P ArrC := P.or
  (do
    let _ ← tok .LPAREN
    let l ← sepBy .COMMA (discreteRange E)
    let _ ← tok .RPAREN
    let e ← opt E.elemC
    return .index l (e.getD .none))
  (do
    let _ ← tok .LPAREN
    let _ ← tok (.kw .OPEN)
    let _ ← tok .RPAREN
    let e ← opt E.elemC
    return .opn (e.getD .none))

/-- lines 345-348. -/
def recordConstraint (E : Env) : P Unit := do
  let _ ← tok .LPAREN
  let _ ← sepBy .COMMA (do let _ ← identifier; E.elemC)
  let _ ← tok .RPAREN
  return ()

/-- lines 405-408. -/
def elementConstraint (E : Env) : P ElemC := P.or
  (arrayConstraint E >>= fun a => pure (.array a))
  (recordConstraint E >>= fun _ => pure .record)

/-- An element constraint as a constraint. -/
def ElemC.toConstr : ElemC → Constr
  | .none => .none
  | .array a => .array a
  | .record => .record

/-- lines 292, 401-404. -/
def constraint (E : Env) : P Constr := P.or
  (do let _ ← tok (.kw .RANGE); let r ← range E; return .range r)
  (elementConstraint E >>= fun c => pure c.toConstr)

/-- lines 393-399 behind the first alternative of `resolution_indication`: `LPAREN element_resolution RPAREN`. -/
def elementResolution (E : Env) : P Unit := do
  let _ ← tok .LPAREN
  let _ ← P.or E.resol
    (sepBy .COMMA (do let _ ← identifier; E.resol) >>= fun _ => pure ())
  let _ ← tok .RPAREN
  return ()

/-- lines 392-395. -/
def resolution (E : Env) : P Resol := P.or
  (E.name >>= fun n => pure (.name n))
  (elementResolution E >>= fun _ => pure .element)

/-- lines 389-391, 400. -/
def subtypeIndication (E : Env) : P SubInd := do
  let r ← opt (resolution E)
  let t ← E.name
  let c ← opt (constraint E)
  return .mk (r.getD .none) t (c.getD .none)

/-- lines 691-695. -/
def choice (E : Env) : P Choice := alts [
  discreteRange E >>= fun d => pure (.discr d),
  E.simple 0 >>= fun s => pure (.simple s),
  tok (.kw .OTHERS) >>= fun _ => pure .others]

/-- lines 686-689. -/
def elementAssociation (E : Env) : P Elem := do
  let c ← opt (do let c ← sepBy .BAR (choice E); let _ ← tok .ARROW; return c)
  let e ← E.expression 0
  return match c with
    | none => .pos e
    | some c => .named c e

/-- lines 683-685. -/
def aggregate (E : Env) : P (List Elem) := do
  let _ ← tok .LPAREN
  let l ← sepBy .COMMA (elementAssociation E)
  let _ ← tok .RPAREN
  return l

/-- lines 697-699. -/
def qualified (E : Env) : P (Name × List Elem) := do
  let t ← E.name
  let _ ← tok .APOSTROPHE
  let l ← aggregate E
  return (t, l)

/-- lines 677-681. -/
def numericLiteral (E : Env) : P Primary := alts [
  do
    let t ← tok .DECIMAL_LITERAL
    let n ← opt E.name
    return match n with
      | none => .dec t
      | some n => .decUnit t n,
  do
    let t ← tok .BASED_LITERAL
    let n ← opt E.name
    return match n with
      | none => .based t
      | some n => .basedUnit t n,
  E.name >>= fun n => pure (.name n)]

/-- lines 661-669, 700-702. -/
def primary (E : Env) : P Primary := alts [
  numericLiteral E,
  tok .BIT_STRING_LITERAL >>= fun t => pure (.bits t),
  tok (.kw .NULL) >>= fun _ => pure .null,
  do
    let _ ← tok (.kw .NEW)
    P.or (E.subInd >>= fun s => pure (.newSub s)) (qualified E >>= fun x => pure (.newQual x.1 x.2)),
  aggregate E >>= fun l => pure (.agg l),
  qualified E >>= fun x => pure (.qual x.1 x.2)]

/-- line 670. -/
def logicalOperator : P LogOp := toks [(.kw .AND, .and), (.kw .OR, .or), (.kw .NAND, .nand), (.kw .NOR, .nor),
  (.kw .XOR, .xor), (.kw .XNOR, .xnor)]
/-- line 671. -/
def relationalOperator : P RelOp := toks [(.EQ, .eq), (.NE, .ne), (.LT, .lt), (.CONASGN, .le), (.GT, .gt), (.GE, .ge),
  (.EQ_MATCH, .eqMatch), (.NE_MATCH, .neMatch), (.LT_MATCH, .ltMatch), (.LE_MATCH, .leMatch), (.GT_MATCH, .gtMatch),
  (.GE_MATCH, .geMatch)]
/-- line 672. -/
def shiftOperator : P ShiftOp := toks [(.kw .SLL, .sll), (.kw .SRL, .srl), (.kw .SLA, .sla), (.kw .SRA, .sra),
  (.kw .ROL, .rol), (.kw .ROR, .ror)]
/-- line 673. -/
def addingOperator : P AddOp := toks [(.PLUS, .plus), (.MINUS, .minus), (.AMPERSAND, .amp)]
/-- line 674. -/
def sign : P SignOp := toks [(.PLUS, .plus), (.MINUS, .minus)]
/-- line 675. -/
def multiplyingOperator : P MulOp := toks [(.MUL, .mul), (.DIV, .div), (.kw .MOD, .mod), (.kw .REM, .rem)]

/-- `precpred(_ctx, i)` in a rule called with precedence `p`. -/
def prec {α : Type} (p i : Nat) (x : P α) : P α := if p ≤ i then x else fail

/-- lines 654-660: the loop over the alternatives 3 (precedence 3) and 5 (precedence 1). -/
def simpleStep (E : Env) (p : Nat) (a : Simple) : P Simple := P.or
  (prec p 3 do let o ← multiplyingOperator; let b ← E.simple 4; return .mul a o b)
  (prec p 1 do let o ← addingOperator; let b ← E.simple 2; return .add a o b)

/-- lines 655: `primary ( DOUBLESTAR primary )?`. -/
def power (E : Env) : P Simple := do
  let a ← primary E
  let b ← opt (do let _ ← tok .DOUBLESTAR; primary E)
  return match b with
    | none => .prim a
    | some b => .pow a b

/-- lines 654-660: alternatives 1, 2 (precedence 4), 4 (precedence 2). -/
def simpleHead (E : Env) : P Simple := alts [
  power E,
  do
    let f ← P.or (toks [(.kw .ABS, Simple.abs), (.kw .NOT, Simple.not)]) (logicalOperator >>= fun o => pure (Simple.logic o))
    let s ← E.simple 4
    return f s,
  do let o ← sign; let s ← E.simple 2; return .sign o s]

/-- lines 654-660 with precedence `p`. -/
def simpleExpression (E : Env) (p : Nat) : P Simple := simpleHead E >>= loop (simpleStep E p)

/-- lines 647-653: the loop over the alternatives 3, 4, 5 (precedences 3, 2, 1). -/
def expressionStep (E : Env) (p : Nat) (a : Expression) : P Expression := alts [
  prec p 3 do let o ← shiftOperator; let b ← E.expression 4; return .shift a o b,
  prec p 2 do let o ← relationalOperator; let b ← E.expression 3; return .rel a o b,
  prec p 1 do let o ← logicalOperator; let b ← E.expression 2; return .logic a o b]

/-- lines 647-653: alternatives 1, 2. -/
def expressionHead (E : Env) : P Expression := P.or
  (do let _ ← tok .COND_OP; let p ← primary E; return .cond p)
  (E.simple 0 >>= fun s => pure (.simple s))

/-- lines 647-653 with precedence `p`. -/
def expressionRule (E : Env) (p : Nat) : P Expression := expressionHead E >>= loop (expressionStep E p)

/-- The rules from the rules with less recursion. -/
def Env.next (E : Env) : Env where
  name := Vhdl.name E
  expression := expressionRule E
  simple := simpleExpression E
  subInd := subtypeIndication E
  elemC := elementConstraint E
  resol := resolution E >>= fun _ => pure ()

/-- The rules with recursion to depth `n`. -/
def env : Nat → Env
  | 0 => ⟨fail, fun _ => fail, fun _ => fail, fail, fail, fail⟩
  | n + 1 => (env n).next

/-- The parse of `expression` ANTLR takes where `follow` says if the rest of the file can be parsed behind it. The depth
of the recursion is at most 4 per token. -/
def parseExpression (follow : List VTok → Bool) (ts : List VTok) : Option (Expression × List VTok) :=
  ((env (4 * ts.length + 4)).expression 0 ts).find? fun x => follow x.2

end Verif.Vhdl
