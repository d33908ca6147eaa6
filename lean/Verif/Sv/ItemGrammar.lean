import Verif.Sv.StmGrammar
import Verif.Sv.Module
/-!
# Model of the parser for the items of SystemVerilog modules and generate blocks (grammars/sv2017Parser.g4)

As for statements (Verif/Sv/StmGrammar.lean): a rule is the list of all parses of a beginning of the tokens, in the order in which ANTLR
prefers them. `F` is the rule `statement`. Not modelled, and given by `ItemRules`: gates, nets, tasks and functions, and what the visitors
only report as not implemented.
-/
namespace Verif.Sv
open P

/-- The tokens with which the modelled items begin (but names), and the tokens at which a list of items ends. -/
def itemStart : List ST := [.SEMI, .KW_LOCALPARAM, .KW_PARAMETER, .KW_BIT, .KW_LOGIC, .KW_REG, .KW_BYTE, .KW_SHORTINT, .KW_INT, .KW_LONGINT, .KW_INTEGER, .KW_TIME, .KW_SHORTREAL, .KW_REAL, .KW_REALTIME, .KW_SUPPLY0, .KW_SUPPLY1, .KW_TRI, .KW_TRIAND, .KW_TRIOR, .KW_TRIREG, .KW_TRI0, .KW_TRI1, .KW_UWIRE, .KW_WIRE, .KW_WAND, .KW_WOR, .KW_GENVAR, .KW_INITIAL, .KW_ALWAYS, .KW_ALWAYS_COMB, .KW_ALWAYS_FF, .KW_ALWAYS_LATCH, .KW_ASSIGN, .KW_FOR, .KW_IF,
  .KW_CASE, .KW_BEGIN, .KW_GENERATE, .KW_INPUT, .KW_OUTPUT, .KW_INOUT, .KW_END, .KW_ENDGENERATE, .KW_ENDMODULE]

/-- The tokens of the rule `identifier` (lines 47-56). -/
def idTypes : List ST := [.C_IDENTIFIER, .SIMPLE_IDENTIFIER, .ESCAPED_IDENTIFIER, .KW_SAMPLE, .KW_RANDOMIZE, .KW_TYPE_OPTION, .KW_OPTION, .KW_STD]

/-- The rule needs a token and begins with none of these. -/
def NotAt {α : Type} (l : List ST) (p : P α) : Prop := p [] = [] ∧ ∀ y r, y.ty ∈ l → p (y :: r) = []

/-- The rules which are not modelled; all begin with keywords of their own, `routine` and `assertion` also with names. -/
structure ItemRules where
  /-- line 2036 -/
  override : P Unit
  /-- lines 2038-2049 -/
  gate : P Gate
  /-- lines 187-194 -/
  driveStrength : P Unit
  /-- lines 454-460 -/
  defaultClocking : P Unit
  /-- lines 207-211 -/
  chargeStrength : P Unit
  /-- lines 1836-1840 -/
  task : P TfDef
  /-- `function_declaration` to `covergroup_declaration` in lines 2178-2184 -/
  routine : P GenItem
  /-- lines 983-988 -/
  clocking : P Unit
  /-- `final_construct` (line 492), `assertion_item` (lines 671-674) -/
  assertion : P GenItem
  /-- `dpi_import_export` to `net_alias` in lines 2205-2211 -/
  classes : P GenItem
  /-- lines 2223-2231 -/
  elabTask : P ElabTask
  /-- lines 1798-1801 -/
  externTf : P Unit
  /-- `specparam_declaration` (lines 1568-1569) -/
  specparam : P Unit
  /-- lines 2239-2243 -/
  other : P ModItem
  override_no : NotAt (itemStart ++ idTypes) override
  gate_no : NotAt (itemStart ++ idTypes) gate
  drive_no : NotAt (.LBRACE :: .HASH :: .LSQUARE_BR :: idTypes) driveStrength
  charge_no : NotAt (.LSQUARE_BR :: idTypes) chargeStrength
  default_no : NotAt itemStart defaultClocking
  task_no : NotAt itemStart task
  routine_no : NotAt itemStart routine
  clocking_no : NotAt itemStart clocking
  assertion_no : NotAt itemStart assertion
  classes_no : NotAt itemStart classes
  elab_no : NotAt itemStart elabTask
  extern_no : NotAt itemStart externTf
  specparam_no : NotAt [.KW_INPUT, .KW_OUTPUT, .KW_INOUT, .KW_ENDMODULE] specparam
  other_no : NotAt [.KW_INPUT, .KW_OUTPUT, .KW_INOUT, .KW_ENDMODULE] other

/-! ## Instances -/

/-- lines 522-525. -/
def delay2 (E : Env) : P Unit := do
  let _ ← tok .HASH
  P.or (do let _ ← tok .LPAREN
           let _ ← mintypmax E
           let _ ← opt (do let _ ← tok .COMMA; mintypmax E)
           skip (tok .RPAREN))
    (skip (delayValue E))
/-- lines 516-521. -/
def delay3 (E : Env) : P Unit := do
  let _ ← tok .HASH
  P.or (do let _ ← tok .LPAREN
           let _ ← mintypmax E
           let _ ← opt (do let _ ← tok .COMMA; let _ ← mintypmax E; opt (do let _ ← tok .COMMA; mintypmax E))
           skip (tok .RPAREN))
    (skip (delayValue E))

/-- line 642. -/
def nameOfInstance (E : Env) : P (Ident × List ARange) := do
  let i ← identifier
  let l ← many (unpackedDimension E)
  return (i, l)

/-- lines 2082-2083; `output_terminal` is `net_lvalue`, which is `variable_lvalue` (line 1399). -/
def udpInstanceBody (E : Env) : P Unit := do
  let _ ← tok .LPAREN
  let _ ← E.lvalue
  let _ ← many1 (do let _ ← tok .COMMA; E.expression 0)
  skip (tok .RPAREN)

/-- What follows the name of the primitive in lines 2077-2078. -/
def udpHead (G : ItemRules) (E : Env) : P Unit := P.or
  (do let _ ← G.driveStrength; let _ ← opt (delay2 E); skip (opt (nameOfInstance E)))
  (do let _ ← delay2 E; skip (opt (nameOfInstance E)))

/-- lines 2076-2081. -/
def udpInstantiation (G : ItemRules) (E : Env) : P Unit := do
  let _ ← identifier
  let _ ← opt (udpHead G E)
  let _ ← udpInstanceBody E
  let _ ← many (do let _ ← tok .COMMA; let _ ← opt (nameOfInstance E); udpInstanceBody E)
  skip (tok .SEMI)

/-- line 2092. -/
def orderedPortConnection (E : Env) : P (Option Exp) := do
  let _ ← attributes E
  opt (E.expression 0)

/-- lines 2093-2096. -/
def namedPortConnection (E : Env) : P NamedConn := do
  let _ ← attributes E
  let _ ← tok .DOT
  P.or (tok .MUL >>= fun _ => pure .star)
    (do let i ← identifier
        let v ← opt (do let _ ← tok .LPAREN; let e ← opt (E.expression 0); let _ ← tok .RPAREN; return e)
        return match v with
          | none => .name i
          | some none => .empty i
          | some (some e) => .val i e)

/-- lines 2088-2091. -/
def listOfPortConnections (E : Env) : P Conns := P.or
  (sepBy .COMMA (orderedPortConnection E) >>= fun l => pure (.ordered l))
  (sepBy .COMMA (namedPortConnection E) >>= fun l => pure (.named l))

/-- line 2087. -/
def hierarchicalInstance (E : Env) : P HierInst := do
  let n ← nameOfInstance E
  let _ ← tok .LPAREN
  let c ← listOfPortConnections E
  let _ ← tok .RPAREN
  return ⟨n.1, n.2, c⟩

/-- lines 2084-2086. -/
def moduleInstantiation (E : Env) : P ModInst := do
  let m ← identifier
  let p ← pvaOpt E
  let l ← sepBy .COMMA (hierarchicalInstance E)
  let _ ← tok .SEMI
  return ⟨m, p, l⟩

/-! ## Processes and assignments -/

/-- lines 171-176, 1867-1868. -/
def alwaysConstruct (F : P Stm) : P GenItem := do
  let k ← toks [(.KW_ALWAYS, AlwaysKw.always), (.KW_ALWAYS_COMB, .comb), (.KW_ALWAYS_LATCH, .latch), (.KW_ALWAYS_FF, .ff)]
  let s ← F
  return .always k s

/-- line 453. -/
def initialConstruct (E : Env) (F : P Stm) : P GenItem := do
  let _ ← tok .KW_INITIAL
  let s ← statementOrNull E F
  return .initial s

/-- lines 1985-1988. -/
def continuousAssign (G : ItemRules) (E : Env) : P GenItem := do
  let _ ← tok .KW_ASSIGN
  let l ← P.or
    (do let _ ← opt G.driveStrength; let _ ← opt (delay3 E); sepBy .COMMA (variableAssignment E))
    (do let _ ← delayControl E; sepBy .COMMA (variableAssignment E))
  let _ ← tok .SEMI
  return .assign l

/-- lines 79-92. -/
def netType : P Str := texts [.KW_SUPPLY0, .KW_SUPPLY1, .KW_TRI, .KW_TRIAND, .KW_TRIOR, .KW_TRIREG, .KW_TRI0, .KW_TRI1, .KW_UWIRE, .KW_WIRE, .KW_WAND, .KW_WOR]

/-- lines 1480-1481. -/
def netAssignment (E : Env) : P NetAssign := do
  let i ← identifier
  let l ← many (unpackedDimension E)
  let v ← opt (do let _ ← tok .ASSIGN; E.expression 0)
  return ⟨i, l, v⟩

/-- lines 1603-1613. -/
def netDeclaration (G : ItemRules) (E : Env) : P NetDecl := do
  let d ← alts [
    do let _ ← tok .KW_INTERCONNECT
       let _ ← opt (implicitDataType E)
       let _ ← opt (do let _ ← tok .HASH; delayValue E)
       let _ ← nameOfInstance E
       let _ ← opt (do let _ ← tok .COMMA; nameOfInstance E)
       return .interconnect,
    do let k ← netType
       let s ← opt (P.or G.driveStrength G.chargeStrength)
       let v ← opt (texts [.KW_VECTORED, .KW_SCALARED])
       let t ← opt (dataTypeOrImplicit E)
       let _ ← opt (delay3 E)
       let l ← sepBy .COMMA (netAssignment E)
       return .net k (s.isSome || v.isSome) t l,
    do let i ← identifier
       let _ ← opt (delayControl E)
       let l ← sepBy .COMMA (netAssignment E)
       return .user i l]
  let _ ← tok .SEMI
  return d

/-- lines 1601-1602. -/
def genvarDeclaration : P GenItem := do
  let _ ← tok .KW_GENVAR
  let l ← sepBy .COMMA identifier
  let _ ← tok .SEMI
  return .genvar l

/-! ## Generate constructs; `H` is the rule `generate_item` -/

/-- lines 2138-2139. -/
def genvarInitialization (E : Env) : P GenInit := do
  let g ← flag .KW_GENVAR
  let i ← identifier
  let _ ← tok .ASSIGN
  let e ← E.expression 0
  return ⟨g, i, e⟩

/-- lines 2140-2145. -/
def genvarIteration (E : Env) : P GenIter := P.or
  (do let i ← identifier
      P.or (do let o ← assignOp; let e ← E.expression 0; return .assign i o e) (incOrDecOperator >>= fun o => pure (.incDec false o i)))
  (do let o ← incOrDecOperator; let i ← identifier; return .incDec true o i)

/-- lines 2135-2137. -/
def loopGenerate (E : Env) (H : P GItem) : P GenItem := do
  let _ ← tok .KW_FOR
  let _ ← tok .LPAREN
  let i ← genvarInitialization E
  let _ ← tok .SEMI
  let c ← E.expression 0
  let _ ← tok .SEMI
  let s ← genvarIteration E
  let _ ← tok .RPAREN
  let b ← H
  return .loop i c s b

/-- `KW_ELSE generate_item | {_input->LA(1) != KW_ELSE}?` -/
def elseGenerate (H : P GItem) : P (Option GItem) := P.or
  (do let _ ← tok .KW_ELSE; let b ← H; return some b)
  (notNext .KW_ELSE >>= fun _ => pure none)

/-- lines 2150-2152. -/
def ifGenerate (E : Env) (H : P GItem) : P GenItem := do
  let _ ← tok .KW_IF
  let c ← parExpr E
  let t ← H
  let f ← elseGenerate H
  return match f with
    | none => .if_ c t
    | some f => .ifElse c t f

/-- lines 2155-2158. -/
def caseGenerateItem (E : Env) (H : P GItem) : P CaseGItem := P.or
  (do let _ ← tok .KW_DEFAULT; let _ ← opt (tok .COLON); let g ← H; return .dflt g)
  (do let l ← sepBy .COMMA (E.expression 0); let _ ← tok .COLON; let g ← H; return .exprs l g)

/-- lines 2153-2154. -/
def caseGenerate (E : Env) (H : P GItem) : P GenItem := do
  let _ ← tok .KW_CASE
  let e ← parExpr E
  let l ← many1 (caseGenerateItem E H)
  let _ ← tok .KW_ENDCASE
  return .case e l

/-- line 2133. -/
def generateRegion (H : P GItem) : P (List GItem) := do
  let _ ← tok .KW_GENERATE
  let l ← many H
  let _ ← tok .KW_ENDGENERATE
  return l

/-- lines 2159-2163. -/
def generateBlock (H : P GItem) : P GItem := do
  let p ← opt (do let i ← identifier; let _ ← tok .COLON; return i)
  let _ ← tok .KW_BEGIN
  let n ← blockLabel
  let l ← many H
  let _ ← tok .KW_END
  let e ← blockLabel
  return .block p n l e

/-- lines 2179-2193. -/
def checkerItem (G : ItemRules) (E : Env) (F : P Stm) : P GenItem := alts [
  G.routine,
  genvarDeclaration,
  G.clocking >>= fun _ => pure (.ignored .clocking),
  initialConstruct E F,
  alwaysConstruct F,
  G.assertion,
  continuousAssign G E]

/-- The second alternative of lines 2194-2214. -/
def semiItem (G : ItemRules) (E : Env) : P GenItem := do
  let d ← opt (alts [
    G.defaultClocking >>= fun _ => pure (GenItem.ignored .defaultClocking),
    do let _ ← tok .KW_LOCALPARAM; let d ← paramDeclaration E; return .localparam d,
    do let _ ← tok .KW_PARAMETER; let d ← paramDeclaration E; return .param d])
  let _ ← tok .SEMI
  return d.getD .semi

/-- lines 2194-2214. -/
def interfaceItem (C : StmRules) (G : ItemRules) (E : Env) (F : P Stm) (H : P GItem) : P GenItem := alts [
  moduleInstantiation E >>= fun m => pure (.inst m),
  semiItem G E,
  netDeclaration G E >>= fun d => pure (.net d),
  dataDeclaration C E >>= fun d => pure (.data d),
  G.task >>= fun d => pure (.tf d),
  checkerItem G E F,
  G.classes,
  loopGenerate E H,
  ifGenerate E H,
  caseGenerate E H,
  G.elabTask >>= fun t => pure (.elab t)]

/-- lines 2216-2221. -/
def moduleOrGenerateItem (C : StmRules) (G : ItemRules) (E : Env) (F : P Stm) (H : P GItem) : P GenItem := alts [
  G.override >>= fun _ => pure (.ignored .paramOverride),
  G.gate >>= fun g => pure (.gate g),
  udpInstantiation G E >>= fun _ => pure (.ignored .udp),
  interfaceItem C G E F H]

/-- lines 2164-2172. -/
def generateItemRule (C : StmRules) (G : ItemRules) (E : Env) (F : P Stm) (H : P GItem) : P GItem := alts [
  do let _ ← attributes E
     P.or (moduleOrGenerateItem C G E F H >>= fun i => pure (.item i)) (G.externTf >>= fun _ => pure .externTf),
  do let _ ← tok .KW_RAND; let _ ← dataDeclaration C E; return .rand,
  generateRegion H >>= fun l => pure (.region l),
  generateBlock H]

/-- The rule `generate_item` with recursion to depth `n`. -/
def generateItem (C : StmRules) (G : ItemRules) (E : Env) (F : P Stm) : Nat → P GItem
  | 0 => fail
  | n + 1 => generateItemRule C G E F (generateItem C G E F n)

/-! ## Declarations of ports in the body of a module -/

/-- lines 1462-1467. -/
def netOrVar (E : Env) : P NetOrVar := alts [
  do let _ ← tok .KW_INTERCONNECT; let t ← opt (implicitDataType E); return .interconnect t,
  do let _ ← tok .KW_VAR; let t ← opt (dataTypeOrImplicit E); return .var t,
  do let k ← netType; let t ← opt (dataTypeOrImplicit E); return .net k t,
  dataTypeOrImplicit E >>= fun t => pure (.type t)]

/-- lines 1453-1457. -/
def netPortType (E : Env) : P NetPort := alts [
  do let _ ← tok .KW_INTERCONNECT; let t ← opt (implicitDataType E); return .interconnect t,
  do let k ← netType; let t ← opt (dataTypeOrImplicit E); return .net k t,
  dataTypeOrImplicit E >>= fun t => pure (.type t)]

/-- lines 1458-1461. -/
def varDataType (E : Env) : P VarDType := P.or
  (do let _ ← tok .KW_VAR; let t ← opt (dataTypeOrImplicit E); return .var t)
  (E.dataType >>= fun t => pure (.type t))

/-- lines 1473-1476. -/
def variableIdentifiers (E : Env) : P (List VarId) := sepBy .COMMA (do
  let i ← identifier
  let l ← many (variableDimension E)
  return ⟨i, l, none⟩)

/-- lines 770-775, 1477. -/
def tfVariableIdentifiers (E : Env) : P (List VarId) := sepBy .COMMA (do
  let i ← identifier
  let l ← many (variableDimension E)
  let v ← opt (do let _ ← tok .ASSIGN; E.expression 0)
  return ⟨i, l, v⟩)

/-- lines 1638-1646. -/
def nonansiPortDeclaration (E : Env) : P NonansiDecl := do
  let _ ← attributes E
  alts [
    do let _ ← tok .KW_INOUT; let t ← opt (netPortType E); let l ← variableIdentifiers E; return .inout t l,
    do let _ ← tok .KW_INPUT; let t ← opt (netOrVar E); let l ← variableIdentifiers E; return .input t l,
    do let _ ← tok .KW_OUTPUT; let t ← opt (netOrVar E); let l ← tfVariableIdentifiers E; return .output t l,
    do let i ← identifier; let m ← opt (do let _ ← tok .DOT; identifier); let l ← variableIdentifiers E; return .iface i m l,
    do let _ ← tok .KW_REF; let t ← opt (varDataType E); let l ← variableIdentifiers E; return .ref t l]

/-- lines 2232-2245. -/
def moduleItem (C : StmRules) (G : ItemRules) (E : Env) (F : P Stm) (H : P GItem) : P ModItem := alts [
  generateRegion H >>= fun l => pure (.region l),
  do let _ ← attributes E
     P.or (moduleOrGenerateItem C G E F H >>= fun i => pure (.item i)) (G.specparam >>= fun _ => pure .other),
  G.other,
  do let d ← nonansiPortDeclaration E; let _ ← tok .SEMI; return .port d]

/-- The parse of the rule `generate_item` that ANTLR takes if what follows the rule takes exactly the rests for which `follow` holds. -/
def parseGenerateItem (B : Rules) (C : StmRules) (G : ItemRules) (follow : List STok → Bool) (ts : List STok) : Option (GItem × List STok) :=
  let E := env B (7 * ts.length + 7)
  (generateItem C G E (statement B C E (ts.length + 1)) (ts.length + 1) ts).find? fun x => follow x.2

/-- The same for the rule `module_item`. -/
def parseModuleItem (B : Rules) (C : StmRules) (G : ItemRules) (follow : List STok → Bool) (ts : List STok) : Option (ModItem × List STok) :=
  let E := env B (7 * ts.length + 7)
  let F := statement B C E (ts.length + 1)
  (moduleItem C G E F (generateItem C G E F (ts.length + 1)) ts).find? fun x => follow x.2

end Verif.Sv
