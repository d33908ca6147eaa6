import Verif.Sv.Token
import Verif.Sv.Tree
/-!
# Model of the parser for SystemVerilog expressions (grammars/sv2017Parser.g4)

Every rule of the grammar that an expression can reach is one definition, but for three which are given by `Rules`: what follows
the keyword `randomize`, `enum` or `struct` / `union`. The parser is generated by ANTLR 4 (not part of /repo); its ALL(*)
prediction takes at every decision the first alternative with which the whole input can still be parsed. So the tree it
builds is the first one in the order of the decisions. A rule is modelled by the list of all its parses of a beginning of
the tokens in exactly this order (`P`): alternatives in the order of the grammar, `x?` and `x*` first with one more `x`.
The parse ANTLR takes is the first one whose rest can be parsed by what follows the rule.

A rule that calls itself at its left end is rewritten by ANTLR to a loop with precedences: alternative number `i` of `n` has
precedence `n - i + 1`; if the alternative also ends with the rule itself, this right operand is parsed with a precedence one
higher, or with the same precedence if the alternative is marked `<assoc=right>`; all other calls of the rule have precedence 0; in
a rule called with precedence `p` the loop goes on with the alternatives of precedence at least `p` (`precpred(_ctx, i)`).

The rules call each other; `Env` are the rules as far as they are called recursively, and `env n` are the rules with recursion
to depth `n`.
-/
namespace Verif.Sv

/-- The parses of a beginning of the tokens with the rest of the tokens, in the order in which ANTLR prefers them. -/
def P (α : Type) : Type := List STok → List (α × List STok)

namespace P
variable {α β : Type}

/-- The empty rule. -/
def ret (a : α) : P α := fun ts => [(a, ts)]
/-- Sequence. -/
def bnd (p : P α) (f : α → P β) : P β := fun ts => (p ts).flatMap fun x => f x.1 x.2
instance : Monad P where
  pure := ret
  bind := bnd
/-- Alternatives: the first one is preferred. -/
def or (p q : P α) : P α := fun ts => p ts ++ q ts
/-- No parse. -/
def fail : P α := fun _ => []
/-- A list of alternatives. -/
def alts : List (P α) → P α
  | [] => fail
  | [p] => p
  | p :: l => or p (alts l)
/-- A token of a type, the result is its text. -/
def tok (t : ST) : P Str
  | [] => []
  | x :: r => if x.ty = t then [(x.text, r)] else []
/-- `p?` -/
def opt (p : P α) : P (Option α) := or (p >>= fun a => pure (some a)) (pure none)
/-- `p*` at most `n` times. -/
def manyN (p : P α) : Nat → P (List α)
  | 0 => pure []
  | n + 1 => or (p >>= fun a => manyN p n >>= fun l => pure (a :: l)) (pure [])
/-- `p*` for a rule that uses up tokens. -/
def many (p : P α) : P (List α) := fun ts => manyN p ts.length ts
/-- `p+` -/
def many1 (p : P α) : P (List α) := do
  let a ← p
  let l ← many p
  return a :: l
/-- The loop of a left recursive rule, at most `n` times: `f a` parses what can follow the tree `a` and gives the bigger tree. -/
def loopN (f : α → P α) : Nat → α → P α
  | 0, a => pure a
  | n + 1, a => or (f a >>= loopN f n) (pure a)
/-- The loop of a left recursive rule. -/
def loop (f : α → P α) (a : α) : P α := fun ts => loopN f ts.length a ts
/-- `p (sep p)*` -/
def sepBy (sep : ST) (p : P α) : P (List α) := do
  let a ← p
  let l ← many (do let _ ← tok sep; p)
  return a :: l
/-- A choice between tokens. -/
def toks (l : List (ST × α)) : P α := alts (l.map fun x => tok x.1 >>= fun _ => pure x.2)
/-- A choice between tokens of which the text counts. -/
def texts (l : List ST) : P Str := alts (l.map tok)
/-- A rule of which the result does not count. -/
def skip (p : P α) : P Unit := p >>= fun _ => pure ()
end P

open P

/-- The rules which are not modelled: what follows the keywords `randomize` (lines 1431-1436), `enum` (lines 1187-1188) and
`struct`, `union` (lines 1189-1190). They can be any parsers which take a beginning of the tokens. -/
structure Rules where
  randomize : P Unit
  enumBody : P Unit
  structBody : P Unit
  randomize_suffix : ∀ ts x, x ∈ randomize ts → ∃ u, ts = u ++ x.2
  enumBody_suffix : ∀ ts x, x ∈ enumBody ts → ∃ u, ts = u ++ x.2
  structBody_suffix : ∀ ts x, x ∈ structBody ts → ∃ u, ts = u ++ x.2

/-- The rules which call themselves (also through others). -/
structure Env where
  expression : Nat → P Exp
  dataType : P DType
  lvalue : P LVal
  concatenation : P Concat
  pattern : P Unit
  event : P Unit

/-- lines 47-56. -/
def identifier : P Ident := P.or (tok .C_IDENTIFIER >>= fun t => pure ⟨false, t⟩)
  (P.or (tok .SIMPLE_IDENTIFIER >>= fun t => pure ⟨false, t⟩) (P.or (tok .ESCAPED_IDENTIFIER >>= fun t => pure ⟨true, t⟩)
  (texts [.KW_SAMPLE, .KW_RANDOMIZE, .KW_TYPE_OPTION, .KW_OPTION, .KW_STD] >>= fun t => pure ⟨false, t⟩)))

/-- lines 61-68. -/
def integerAtomType : P Str := texts [.KW_BYTE, .KW_SHORTINT, .KW_INT, .KW_LONGINT, .KW_INTEGER, .KW_TIME]
/-- lines 69-73. -/
def integerVectorType : P Str := texts [.KW_BIT, .KW_LOGIC, .KW_REG]
/-- lines 57-60. -/
def integerType : P Str := P.or integerVectorType integerAtomType
/-- lines 74-78. -/
def nonIntegerType : P Str := texts [.KW_SHORTREAL, .KW_REAL, .KW_REALTIME]
/-- lines 147-150. -/
def signing : P Sign := toks [(.KW_SIGNED, .signed), (.KW_UNSIGNED, .unsigned)]
/-- `( signing )?` -/
def signingOpt : P Sign := opt signing >>= fun s => pure (s.getD .none)
/-- lines 93-108. -/
def unaryOperator : P UnOp := toks [(.PLUS, .plus), (.MINUS, .minus), (.NOT, .not), (.NEG, .neg), (.AMPERSAND, .and), (.NAND, .nand),
  (.BAR, .or), (.NOR, .nor), (.XOR, .xor), (.NXOR, .nxor), (.XORN, .xorn)]
/-- lines 109-112; `true`: `++`. -/
def incOrDecOperator : P Bool := toks [(.INCR, true), (.DECR, false)]
/-- lines 113-116. -/
def implicitClassHandle : P PathHead := P.or
  (do let _ ← tok .KW_THIS
      let s ← opt (do let _ ← tok .DOT; tok .KW_SUPER)
      return if s.isSome then .thisSuper else .this)
  (tok .KW_SUPER >>= fun _ => pure .super)
/-- lines 117-121. -/
def integralNumber : P IntegralCtx := alts [
  tok .BASED_NUMBER_WITH_SIZE >>= fun t => pure (.basedWithSize t),
  do let n ← opt (tok .UNSIGNED_NUMBER); let t ← tok .ANY_BASED_NUMBER; return .anyBased n t,
  tok .UNSIGNED_NUMBER >>= fun t => pure (.unsigned t)]
/-- lines 122-125. -/
def realNumber : P Str := texts [.REAL_NUMBER_WITH_EXP, .FIXED_POINT_NUMBER]
/-- lines 126-146. -/
def anySystemTfIdentifier : P Str := texts [.SYSTEM_TF_IDENTIFIER, .KW_DOLAR_SETUPHOLD, .KW_DOLAR_SETUP, .KW_DOLAR_FULLSKEW,
  .KW_DOLAR_WARNING, .KW_DOLAR_WIDTH, .KW_DOLAR_ROOT, .KW_DOLAR_RECOVERY, .KW_DOLAR_SKEW, .KW_DOLAR_FATAL, .KW_DOLAR_REMOVAL,
  .KW_DOLAR_RECREM, .KW_DOLAR_ERROR, .KW_DOLAR_PERIOD, .KW_DOLAR_HOLD, .KW_DOLAR_INFO, .KW_DOLAR_UNIT, .KW_DOLAR_TIMESKEW,
  .KW_DOLAR_NOCHANGE]
/-- lines 151-154, 1222-1230. -/
def primaryLiteral : P Lit := alts [
  tok .TIME_LITERAL >>= fun t => pure (.time t),
  tok .UNBASED_UNSIZED_LITERAL >>= fun t => pure (.unbased t),
  tok .STRING_LITERAL >>= fun t => pure (.str t),
  integralNumber >>= fun n => pure (.integral n),
  realNumber >>= fun t => pure (.real t),
  tok .KW_NULL >>= fun _ => pure .null,
  tok .KW_THIS >>= fun _ => pure .this,
  tok .DOLAR >>= fun _ => pure .dolar]
/-- lines 298-304; the text of the name. -/
def arrayMethodName : P Str := P.or (texts [.KW_UNIQUE, .KW_AND, .KW_OR, .KW_XOR]) (identifier >>= fun i => pure i.text)

/-- lines 305-309. -/
def operatorMulDivMod : P BinOp := toks [(.MUL, .mul), (.DIV, .div), (.MOD, .mod)]
/-- lines 310-313. -/
def operatorPlusMinus : P BinOp := toks [(.PLUS, .add), (.MINUS, .sub)]
/-- lines 314-319. -/
def operatorShift : P BinOp := toks [(.SHIFT_LEFT, .shl), (.SHIFT_RIGHT, .shr), (.ARITH_SHIFT_LEFT, .ashl), (.ARITH_SHIFT_RIGHT, .ashr)]
/-- lines 320-325. -/
def operatorCmp : P BinOp := toks [(.LT, .lt), (.LE, .le), (.GT, .gt), (.GE, .ge)]
/-- lines 326-333. -/
def operatorEqNeq : P BinOp := toks [(.EQ, .eq), (.NE, .ne), (.CASE_EQ, .caseEq), (.CASE_NE, .caseNe), (.WILDCARD_EQ, .wildEq),
  (.WILDCARD_NE, .wildNe)]
/-- lines 334-338. -/
def operatorXor : P BinOp := toks [(.XOR, .xor), (.NXOR, .nxor), (.XORN, .xorn)]
/-- lines 339-342. -/
def operatorImpl : P BinOp := toks [(.ARROW, .impl), (.BI_DIR_ARROW, .equiv)]
/-- lines 27-41. -/
def assignmentOperator : P Str := texts [.ASSIGN, .PLUS_ASSIGN, .MINUS_ASSIGN, .MUL_ASSIGN, .DIV_ASSIGN, .MOD_ASSIGN, .AND_ASSIGN,
  .OR_ASSIGN, .XOR_ASSIGN, .SHIFT_LEFT_ASSIGN, .SHIFT_RIGHT_ASSIGN, .ARITH_SHIFT_LEFT_ASSIGN, .ARITH_SHIFT_RIGHT_ASSIGN]

/-- lines 1145-1146. -/
def attributeInstance (E : Env) : P Unit := do
  let _ ← tok .LPAREN
  let _ ← tok .MUL
  let _ ← sepBy .COMMA (do let _ ← identifier; opt (do let _ ← tok .ASSIGN; E.expression 0))
  let _ ← tok .MUL
  let _ ← tok .RPAREN
  return ()
/-- `( attribute_instance )*` -/
def attributes (E : Env) : P (List Unit) := many (attributeInstance E)

/-- line 1252. -/
def mintypmax (E : Env) : P MTM := do
  let a ← E.expression 0
  let r ← opt (do let _ ← tok .COLON; let b ← E.expression 0; let _ ← tok .COLON; let c ← E.expression 0; return (b, c))
  return match r with
    | none => .one a
    | some (b, c) => .three a b c

/-- lines 1152-1155. -/
def paramExpression (E : Env) : P PExpr := P.or (mintypmax E >>= fun m => pure (.mtm m)) (E.dataType >>= fun t => pure (.type t))

/-- line 1253. -/
def namedParameterAssignment (E : Env) : P NamedP := do
  let _ ← tok .DOT
  let i ← identifier
  let _ ← tok .LPAREN
  let e ← opt (paramExpression E)
  let _ ← tok .RPAREN
  return match e with
    | none => .empty i
    | some e => .val i e

/-- lines 1239-1243. -/
def parameterValueAssignment (E : Env) : P PVA := do
  let _ ← tok .HASH
  let _ ← tok .LPAREN
  let l ← opt (P.or (sepBy .COMMA (paramExpression E) >>= fun l => pure (.ordered l))
    (sepBy .COMMA (namedParameterAssignment E) >>= fun l => pure (.named l)))
  let _ ← tok .RPAREN
  return l.getD (.ordered [])

/-- `( parameter_value_assignment )?` -/
def pvaOpt (E : Env) : P PVA := opt (parameterValueAssignment E) >>= fun p => pure (p.getD .none)

/-- line 907. -/
def pathItem (E : Env) : P PathItem := do
  let i ← identifier
  let p ← pvaOpt E
  return .mk i p

/-- The part in parentheses of lines 910-915. -/
def pathHead (E : Env) : P (PathHead × List PathItem) := alts [
  tok .KW_DOLAR_ROOT >>= fun _ => pure (.root, []),
  implicitClassHandle >>= fun h => pure (h, []),
  tok .KW_DOLAR_UNIT >>= fun _ => pure (.unit, []),
  pathItem E >>= fun i => pure (.items, [i])]

/-- lines 909-915. -/
def path (E : Env) : P Path := do
  let l ← opt (do let _ ← tok .KW_LOCAL; tok .DOUBLE_COLON)
  let h ← pathHead E
  let m ← many (do let _ ← tok .DOUBLE_COLON; pathItem E)
  return .mk l.isSome h.1 (h.2 ++ m)

/-- line 899. -/
def bitSelect (E : Env) : P Exp := do
  let _ ← tok .LSQUARE_BR
  let e ← E.expression 0
  let _ ← tok .RSQUARE_BR
  return e

/-- lines 1348-1349. -/
def arrayRange (E : Env) : P ARange := do
  let a ← E.expression 0
  let r ← opt (do let o ← opt operatorPlusMinus; let _ ← tok .COLON; let b ← E.expression 0; return (o, b))
  return match r with
    | none => .one a
    | some (none, b) => .range a b
    | some (some .add, b) => .plus a b
    | some (some _, b) => .minus a b

/-- lines 1160-1165. -/
def variableDimension (E : Env) : P VDim := do
  let _ ← tok .LSQUARE_BR
  let d ← opt (alts [
    tok .MUL >>= fun _ => pure .star,
    E.dataType >>= fun t => pure (.type t),
    arrayRange E >>= fun r => pure (.range r)])
  let _ ← tok .RSQUARE_BR
  return d.getD .empty

/-- lines 1231-1236. -/
def typeReference (E : Env) : P TRef := do
  let _ ← tok .KW_TYPE
  let _ ← tok .LPAREN
  let t ← P.or (E.expression 0 >>= fun e => pure (.expr e)) (E.dataType >>= fun t => pure (.type t))
  let _ ← tok .RPAREN
  return t

/-- lines 1177-1180. -/
def dataTypePrimitive : P DPrim := alts [
  do let k ← integerVectorType; let s ← signingOpt; return .vec k s,
  do let k ← integerAtomType; let s ← signingOpt; return .atom k s,
  nonIntegerType >>= fun k => pure (.nonInt k)]

/-- What stands in front of the dimensions in lines 1186-1191; what it makes of the dimensions. -/
def dataTypeBase (B : Rules) (E : Env) : P (List VDim → DType) := alts [
  dataTypePrimitive >>= fun p => pure (.prim p),
  do let _ ← tok .KW_ENUM; B.enumBody; return .enum,
  do let _ ← texts [.KW_STRUCT, .KW_UNION]; B.structBody; return .struct,
  path E >>= fun p => pure (.path p)]

/-- lines 1181-1194. -/
def dataType (B : Rules) (E : Env) : P DType := alts [
  tok .KW_STRING >>= fun _ => pure .string,
  tok .KW_CHANDLE >>= fun _ => pure .chandle,
  do let _ ← tok .KW_VIRTUAL
     let _ ← opt (tok .KW_INTERFACE)
     let i ← identifier
     let p ← pvaOpt E
     let m ← opt (do let _ ← tok .DOT; identifier)
     return .virtual i p m,
  tok .KW_EVENT >>= fun _ => pure .event,
  do let b ← dataTypeBase B E; let l ← many (variableDimension E); return b l,
  typeReference E >>= fun t => pure (.typeRef t)]

/-- line 1213. -/
def namedArgument (E : Env) : P Arg := do
  let _ ← tok .DOT
  let i ← identifier
  let _ ← tok .LPAREN
  let e ← opt (E.expression 0)
  let _ ← tok .RPAREN
  return match e with
    | none => .namedEmpty i
    | some e => .named i e

/-- `COMMA ( expression )?` -/
def commaExpression (E : Env) : P (List Arg) := do
  let _ ← tok .COMMA
  let e ← opt (E.expression 0)
  return match e with
    | none => [.comma]
    | some e => [.comma, .expr e]

/-- lines 1214-1220. -/
def listOfArguments (E : Env) : P (List Arg) := do
  let a ← alts [
    namedArgument E >>= fun a => pure [a],
    do let _ ← tok .COMMA; let a ← namedArgument E; return [.comma, a],
    do let e ← E.expression 0; let l ← many (commaExpression E); return .expr e :: l.flatten,
    many1 (commaExpression E) >>= fun l => pure l.flatten]
  let l ← many (do let _ ← tok .COMMA; namedArgument E)
  return a ++ (l.map fun x => [Arg.comma, x]).flatten

/-- lines 1014-1017. -/
def clockingEvent (E : Env) : P Unit := do
  let _ ← tok .AT
  P.or (skip identifier) (do let _ ← tok .LPAREN; let _ ← E.event; let _ ← tok .RPAREN; return ())

/-- lines 928-931. -/
def eventItem (E : Env) : P Unit := P.or
  (do let _ ← tok .LPAREN; let _ ← E.event; let _ ← tok .RPAREN; return ())
  (do let _ ← opt (texts [.KW_POSEDGE, .KW_NEGEDGE, .KW_EDGE])
      let _ ← E.expression 0
      let _ ← opt (do let _ ← tok .KW_IFF; E.expression 0)
      return ())

/-- line 932. -/
def eventExpression (E : Env) : P Unit := do
  let _ ← eventItem E
  let _ ← many (do let _ ← texts [.KW_OR, .COMMA]; eventItem E)
  return ()

/-- lines 1316-1317. -/
def concatenation (E : Env) : P Concat := do
  let _ ← tok .LBRACE
  let c ← opt (do
    let e ← E.expression 0
    let m ← opt (P.or (E.concatenation >>= fun c => pure (Sum.inl c))
      (many1 (do let _ ← tok .COMMA; E.expression 0) >>= fun l => pure (Sum.inr l)))
    return match m with
      | none => Concat.list [e]
      | some (.inl c) => .repl e c
      | some (.inr l) => .list (e :: l))
  let _ ← tok .RBRACE
  return c.getD (.list [])

/-- lines 1336-1341. -/
def sliceSize (E : Env) : P Unit := alts [skip integerType, skip nonIntegerType, skip (path E), skip (E.expression 0)]

/-- lines 1346-1347. -/
def streamExpression (E : Env) : P Unit := do
  let _ ← E.expression 0
  let _ ← opt (do let _ ← tok .KW_WITH; let _ ← tok .LSQUARE_BR; let _ ← arrayRange E; let _ ← tok .RSQUARE_BR; return ())
  return ()

/-- lines 1332-1335, 1342-1345. -/
def streamingConcatenation (E : Env) : P Unit := do
  let _ ← tok .LBRACE
  let _ ← texts [.SHIFT_RIGHT, .SHIFT_LEFT]
  let _ ← opt (sliceSize E)
  let _ ← tok .LBRACE
  let _ ← sepBy .COMMA (streamExpression E)
  let _ ← tok .RBRACE
  let _ ← tok .RBRACE
  return ()

/-- lines 1377-1382. -/
def assignmentPatternKey (E : Env) : P Key := alts [
  tok .KW_DEFAULT >>= fun _ => pure .dflt,
  integerType >>= fun _ => pure .intType,
  nonIntegerType >>= fun _ => pure .nonIntType,
  path E >>= fun p => pure (.path p)]
/-- lines 1369-1372. -/
def structurePatternKey (E : Env) : P Key := P.or (identifier >>= fun i => pure (.ident i)) (assignmentPatternKey E)
/-- lines 1373-1376. -/
def arrayPatternKey (E : Env) : P Key := P.or (E.expression 0 >>= fun e => pure (.expr e)) (assignmentPatternKey E)
/-- `key COLON expression` -/
def keyed (E : Env) (k : P Key) : P KV := do
  let k ← k
  let _ ← tok .COLON
  let e ← E.expression 0
  return .mk k e

/-- lines 1360-1368. -/
def assignmentPattern (E : Env) : P Pattern := do
  let _ ← tok .APOSTROPHE_LBRACE
  let p ← opt (alts [
    sepBy .COMMA (E.expression 0) >>= fun l => pure (Pattern.list l),
    sepBy .COMMA (keyed E (structurePatternKey E)) >>= fun l => pure (.keyed l),
    sepBy .COMMA (keyed E (arrayPatternKey E)) >>= fun l => pure (.keyed l),
    do let n ← E.expression 0
       let _ ← tok .LBRACE
       let l ← sepBy .COMMA (E.expression 0)
       let _ ← tok .RBRACE
       return .repl n l])
  let _ ← tok .RBRACE
  return p.getD (.list [])

/-- lines 1394-1398. -/
def patternType (E : Env) : P Unit := alts [skip (path E), skip integerAtomType, skip (typeReference E)]

/-- lines 1392-1393; `true`: with a type. -/
def assignmentPatternExpression (E : Env) : P (Bool × Pattern) := do
  let t ← opt (patternType E)
  let a ← assignmentPattern E
  return (t.isSome, a)

/-- line 900 after `DOT`. -/
def member (E : Env) : P Member := do
  let _ ← tok .DOT
  let i ← identifier
  let l ← many (bitSelect E)
  return .mk i l

/-- lines 902-905. -/
def hierSel (E : Env) : P HSel := do
  let p ← path E
  let b ← many (bitSelect E)
  let m ← many (member E)
  let s ← opt (do
    let _ ← tok .LSQUARE_BR
    let a ← E.expression 0
    let o ← opt operatorPlusMinus
    let _ ← tok .COLON
    let c ← E.expression 0
    let _ ← tok .RSQUARE_BR
    return match o with
      | none => Sel.range a c
      | some .add => .plus a c
      | some _ => .minus a c)
  return .mk p b m (s.getD .none)

/-- lines 1330-1331, 1400-1405. -/
def lvalue (E : Env) : P LVal := alts [
  do let _ ← tok .LBRACE; let l ← sepBy .COMMA E.lvalue; let _ ← tok .RBRACE; return .brace l,
  hierSel E >>= fun h => pure (.hier h),
  do let _ ← opt (patternType E)
     let _ ← tok .APOSTROPHE_LBRACE
     let _ ← sepBy .COMMA E.lvalue
     let _ ← tok .RBRACE
     return .pattern,
  streamingConcatenation E >>= fun _ => pure .streaming]

/-- lines 1351-1359. -/
def pattern (E : Env) : P Unit := alts [
  do let _ ← tok .DOT; P.or (skip (tok .MUL)) (skip identifier),
  do let _ ← tok .KW_TAGGED; let _ ← identifier; let _ ← opt E.pattern; return (),
  do let _ ← tok .APOSTROPHE_LBRACE
     let _ ← P.or (sepBy .COMMA E.pattern)
       (sepBy .COMMA (do let _ ← identifier; let _ ← tok .COLON; E.pattern))
     let _ ← tok .RBRACE
     return (),
  skip (E.expression 0)]

/-- lines 1430-1437. -/
def randomizeCall (B : Rules) : P Unit := do
  let _ ← tok .KW_RANDOMIZE
  B.randomize

/-- lines 1272-1275. -/
def tfCall (E : Env) : P Prim := do
  let f ← anySystemTfIdentifier
  let r ← opt (P.or
    (do let _ ← tok .LPAREN
        let t ← E.dataType
        let l ← opt (do let _ ← tok .COMMA; listOfArguments E)
        let c ← opt (do let _ ← tok .COMMA; clockingEvent E)
        let _ ← tok .RPAREN
        return Prim.tfCallT f t (l.getD []) c.isSome)
    (do let _ ← tok .LPAREN
        let l ← listOfArguments E
        let c ← opt (do let _ ← tok .COMMA; clockingEvent E)
        let _ ← tok .RPAREN
        return .tfCall f l c.isSome))
  return r.getD (.tfCall0 f)

/-- lines 1257-1278: the alternatives of `primary` which do not start with `primary`. -/
def primaryHead (B : Rules) (E : Env) : P Prim := alts [
  primaryLiteral >>= fun l => pure (.lit l),
  path E >>= fun p => pure (.path p),
  do let _ ← tok .LPAREN; let m ← mintypmax E; let _ ← tok .RPAREN; return .par m,
  do let _ ← alts [skip (tok .KW_STRING), skip (tok .KW_CONST), skip integerType, skip nonIntegerType, skip signing]
     let _ ← tok .APOSTROPHE
     let _ ← tok .LPAREN
     let _ ← E.expression 0
     let _ ← tok .RPAREN
     return .cast,
  concatenation E >>= fun c => pure (.concat c),
  streamingConcatenation E >>= fun _ => pure .streaming,
  tfCall E,
  do let _ ← opt (do let _ ← tok .KW_STD; tok .DOUBLE_COLON); randomizeCall B; return .randomize,
  assignmentPatternExpression E >>= fun a => pure (.assig a.1 a.2),
  typeReference E >>= fun t => pure (.typeRef t)]

/-- `KW_WITH LPAREN expression RPAREN` -/
def withClause (E : Env) : P Exp := do
  let _ ← tok .KW_WITH
  let _ ← tok .LPAREN
  let e ← E.expression 0
  let _ ← tok .RPAREN
  return e

/-- `( DOT array_method_name )?` -/
def methodOpt : P (Option Str) := opt (do let _ ← tok .DOT; arrayMethodName)

/-- lines 1266-1286: the alternatives of `primary` which start with `primary`. -/
def primaryStep (B : Rules) (E : Env) (p : Prim) : P Prim := alts [
  do let _ ← tok .APOSTROPHE; let _ ← tok .LPAREN; let e ← E.expression 0; let _ ← tok .RPAREN; return .cast2 p e,
  bitSelect E >>= fun e => pure (.bitSel p e),
  do let _ ← tok .DOT; let i ← identifier; return .dot p i,
  do let _ ← tok .LSQUARE_BR; let r ← arrayRange E; let _ ← tok .RSQUARE_BR; return .index p r,
  do let _ ← tok .DOT; randomizeCall B; return .randomize2,
  do let m ← methodOpt
     let _ ← attributes E
     let _ ← tok .LPAREN
     let l ← opt (listOfArguments E)
     let _ ← tok .RPAREN
     let w ← opt (withClause E)
     return match l with
       | none => .call0 p m w.isSome
       | some l => .call p m l w.isSome,
  do let _ ← tok .DOT; let m ← arrayMethodName; return .methodNoArgs p m,
  do let m ← methodOpt; let _ ← attributes E; let e ← withClause E; return .callWith p m e]

/-- lines 1256-1286. -/
def primary (B : Rules) (E : Env) : P Prim := primaryHead B E >>= loop (primaryStep B E)

/-- lines 1289-1292. -/
def incOrDec (E : Env) : P Exp := P.or
  (do let o ← incOrDecOperator; let _ ← attributes E; let l ← E.lvalue; return .incDec true o l)
  (do let l ← E.lvalue; let _ ← attributes E; let o ← incOrDecOperator; return .incDec false o l)

/-- Lines 1294-1298 (and 974): the alternatives of `expression` which do not start with `expression`. -/
def expressionHead (B : Rules) (E : Env) : P Exp := alts [
  primary B E >>= fun p => pure (.prim p),
  do let _ ← tok .LPAREN
     let _ ← E.lvalue
     let _ ← assignmentOperator
     let _ ← E.expression 0
     let _ ← tok .RPAREN
     return .opAssign,
  do let _ ← tok .KW_TAGGED; let _ ← identifier; let _ ← opt (E.expression 0); return .tagged,
  do let o ← unaryOperator; let _ ← attributes E; let p ← primary B E; return .unary o p,
  incOrDec E]

/-- `precpred(_ctx, i)` in a rule called with precedence `p`. -/
def prec {α : Type} (p i : Nat) (x : P α) : P α := if p ≤ i then x else fail

/-- `expression op ( attribute_instance )* expression`, the right operand with precedence `q`. -/
def binary (E : Env) (a : Exp) (o : P BinOp) (q : Nat) : P Exp := do
  let o ← o
  let _ ← attributes E
  let b ← E.expression q
  return .bin a o b

/-- `( KW_MATCHES pattern )?` -/
def matchesOpt (E : Env) : P (Option Unit) := opt (do let _ ← tok .KW_MATCHES; E.pattern)

/-- lines 1140-1143. -/
def valueRange (E : Env) : P Unit := P.or
  (do let _ ← tok .LSQUARE_BR
      let _ ← E.expression 0
      let _ ← opt (do let _ ← tok .COLON; E.expression 0)
      let _ ← tok .RSQUARE_BR
      return ())
  (skip (E.expression 0))

/-- Lines 1299-1314: the alternatives of `expression` which start with `expression`, of precedence at least `p`. -/
def expressionStep (E : Env) (p : Nat) (a : Exp) : P Exp := alts [
  prec p 15 (binary E a (toks [(.DOUBLESTAR, .pow)]) 16),
  prec p 14 (binary E a operatorMulDivMod 15),
  prec p 13 (binary E a operatorPlusMinus 14),
  prec p 12 (binary E a operatorShift 13),
  prec p 11 (binary E a operatorCmp 12),
  prec p 10 (do
    let _ ← tok .KW_INSIDE
    let _ ← tok .LBRACE
    let _ ← sepBy .COMMA (valueRange E)
    let _ ← tok .RBRACE
    return .inside a),
  prec p 9 (binary E a operatorEqNeq 10),
  prec p 8 (binary E a (toks [(.AMPERSAND, .and)]) 9),
  prec p 7 (binary E a operatorXor 8),
  prec p 6 (binary E a (toks [(.BAR, .or)]) 7),
  prec p 5 (binary E a (toks [(.AND_LOG, .andLog)]) 6),
  prec p 4 (binary E a (toks [(.OR_LOG, .orLog)]) 5),
  prec p 3 (do
    let m ← matchesOpt E
    let _ ← tok .TRIPLE_AND
    let b ← E.expression 0
    let n ← matchesOpt E
    return .tripleAnd a m.isSome b n.isSome),
  prec p 2 (do
    let m ← matchesOpt E
    let _ ← tok .QUESTIONMARK
    let _ ← attributes E
    let t ← E.expression 0
    let _ ← tok .COLON
    let e ← E.expression 2
    return .cond a m.isSome t e),
  prec p 1 (binary E a operatorImpl 1)]

/-- lines 1293-1314. -/
def expressionRule (B : Rules) (E : Env) (p : Nat) : P Exp := expressionHead B E >>= loop (expressionStep E p)

/-- One more level of recursion. -/
def Env.next (B : Rules) (E : Env) : Env where
  expression := expressionRule B E
  dataType := Sv.dataType B E
  lvalue := Sv.lvalue E
  concatenation := Sv.concatenation E
  pattern := Sv.pattern E
  event := eventExpression E

/-- The rules with recursion to depth `n`. -/
def env (B : Rules) : Nat → Env
  | 0 => ⟨fun _ => fail, fail, fail, fail, fail, fail⟩
  | n + 1 => (env B n).next B

/-- The parse of the rule `expression` that ANTLR takes if what follows the rule takes exactly the rests for which `follow` holds. No
rule of the grammar calls itself without a token before, but through at most six others, so a depth of seven for every token
is not less than what the parser reaches. -/
def parseExpression (B : Rules) (follow : List STok → Bool) (ts : List STok) : Option (Exp × List STok) :=
  ((env B (7 * ts.length + 7)).expression 0 ts).find? fun x => follow x.2

end Verif.Sv
