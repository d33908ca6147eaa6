import Verif.Sv.ItemGrammar
/-!
# The grammar of SystemVerilog modules and source texts

The rules of grammars/sv2017Parser.g4 from `source_text` to `module_item`. As in Verif/Sv/Grammar.lean, a rule gives all its parses in the order in which
ANTLR prefers them.

The rules which are not modelled are fields of `ModRules` and `ItemRules`; nothing but the tokens with which they do not begin is assumed about them. A
module inside a module is one of them.
-/
namespace Verif.Sv
open P

/-- Rules which are not modelled. -/
structure ModRules where
  /-- `timeunits_declaration` (lines 155-160) -/
  timeunits : P Unit
  /-- the alternatives of `description` after line 18 -/
  other : P Unit
  time_no : NotAt (.KW_MODULE :: itemStart ++ idTypes) timeunits
  other_no : other [] = []

/-! ## Ports -/

/-- lines 165-170. -/
def portDirection : P PortDir := toks [(.KW_INPUT, .input), (.KW_OUTPUT, .output), (.KW_INOUT, .inout), (.KW_REF, .ref)]

/-- lines 1657-1660. -/
def ansiHead (E : Env) : P AnsiHead := alts [
  do let d ← portDirection; let t ← opt (netOrVar E); return .dir d t,
  netOrVar E >>= fun t => pure (.type t),
  do let i ← P.or (identifier >>= fun i => pure (some i)) (tok .KW_INTERFACE >>= fun _ => pure none)
     let m ← opt (do let _ ← tok .DOT; identifier)
     return .iface i m]

/-- lines 1656-1663. -/
def ansiPort (E : Env) : P AnsiPort := P.or
  (do let h ← opt (ansiHead E)
      let i ← identifier
      let l ← many (variableDimension E)
      let v ← opt (do let _ ← tok .ASSIGN; E.expression 0)
      return .decl (h.getD .none) i l v)
  (do let d ← opt portDirection
      let _ ← tok .DOT
      let i ← identifier
      let _ ← tok .LPAREN
      let e ← opt (E.expression 0)
      let _ ← tok .RPAREN
      return .expl d i e)

/-- lines 1627-1629. -/
def ansiItem (E : Env) : P AnsiPort := do
  let _ ← attributes E
  ansiPort E

/-- lines 1492-1493. -/
def dotIndex (E : Env) : P DotIndex := do
  let i ← identifier
  let m ← opt (do let _ ← tok .DOT; identifier)
  let l ← many (unpackedDimension E)
  return ⟨i, m, l⟩

/-- lines 1651-1654. -/
def nonansiExpr (E : Env) : P NonansiExpr := P.or
  (dotIndex E >>= fun d => pure (.one d))
  (do let _ ← tok .LBRACE; let l ← sepBy .COMMA (dotIndex E); let _ ← tok .RBRACE; return .brace l)

/-- lines 1648-1650. -/
def nonansiPort (E : Env) : P NonansiPort := P.or
  (nonansiExpr E >>= fun e => pure (.expr e))
  (do let _ ← tok .DOT; let i ← identifier; let _ ← tok .LPAREN; let e ← opt (nonansiExpr E); let _ ← tok .RPAREN; return .named i e)

/-- lines 1630-1636. The visitor takes a list without ports for one in the old style (portParser.cpp finds no context of the other style). -/
def listOfPorts (E : Env) : P PortList := do
  let _ ← tok .LPAREN
  let l ← opt (alts [
    do let p ← nonansiPort E
       let l ← many (do let _ ← tok .COMMA; opt (nonansiPort E))
       return .nonansi (some p :: l),
    do let l ← many1 (do let _ ← tok .COMMA; opt (nonansiPort E))
       return .nonansi (none :: l),
    sepBy .COMMA (ansiItem E) >>= fun l => pure (.ansi l)])
  let _ ← tok .RPAREN
  return l.getD (.nonansi [])

/-! ## Parameters -/

/-- lines 1620-1625. -/
def parameterPort (E : Env) : P PortParam := alts [
  do let _ ← tok .KW_TYPE; let l ← sepBy .COMMA (typeAssignment E); return .type l,
  do let _ ← tok .KW_PARAMETER; let d ← paramDeclaration E; return .param d,
  do let _ ← tok .KW_LOCALPARAM; let d ← paramDeclaration E; return .localparam d,
  do let t ← E.dataType; let l ← sepBy .COMMA (paramAssignment E); return .typed t l]

/-- lines 1615-1619. -/
def parameterPortList (E : Env) : P ParamPorts := do
  let _ ← tok .HASH
  let _ ← tok .LPAREN
  let l ← opt (P.or
    (do let l ← sepBy .COMMA (paramAssignment E)
        let m ← many (do let _ ← tok .COMMA; parameterPort E)
        return .assigns l m)
    (do let p ← parameterPort E
        let m ← many (do let _ ← tok .COMMA; parameterPort E)
        return .decls (p :: m)))
  let _ ← tok .RPAREN
  return l.getD (.decls [])

/-! ## Modules -/

/-- lines 1439-1441, 1448-1451. -/
def moduleHeader (E : Env) : P ModHeader := do
  let _ ← attributes E
  let _ ← texts [.KW_MODULE, .KW_MACROMODULE]
  let _ ← opt lifetime
  let i ← identifier
  let _ ← many packageImport
  let p ← opt (parameterPortList E)
  return ⟨i, p⟩

/-- lines 1442-1447. -/
def moduleDeclaration (B : Rules) (C : StmRules) (G : ItemRules) (D : ModRules) (n : Nat) : P Mod :=
  let E := env B (7 * n + 7)
  let F := statement B C E (n + 1)
  P.or
    (do let _ ← tok .KW_EXTERN
        let h ← moduleHeader E
        let p ← opt (listOfPorts E)
        let _ ← tok .SEMI
        return .mk true h (match p with | some p => .list p | none => .none) [])
    (do let h ← moduleHeader E
        let p ← opt (P.or
          (listOfPorts E >>= fun p => pure (HdrPorts.list p))
          (do let _ ← tok .LPAREN; let _ ← tok .DOT; let _ ← tok .MUL; let _ ← tok .RPAREN; return HdrPorts.star))
        let _ ← tok .SEMI
        let _ ← opt D.timeunits
        let l ← many (moduleItem C G E F (generateItem C G E F n))
        let _ ← tok .KW_ENDMODULE
        let _ ← blockLabel
        return .mk false h (p.getD .none) l)

/-- lines 17-25. -/
def description (B : Rules) (C : StmRules) (G : ItemRules) (D : ModRules) (n : Nat) : P Desc := P.or
  (moduleDeclaration B C G D n >>= fun m => pure (.module_ m))
  (D.other >>= fun _ => pure .other)

/-- line 16 without the end of the file. -/
def sourceText (B : Rules) (C : StmRules) (G : ItemRules) (D : ModRules) (n : Nat) : P (List Desc) := do
  let _ ← opt D.timeunits
  many (description B C G D n)

/-- line 16: the parse of a file. -/
def parseSource (B : Rules) (C : StmRules) (G : ItemRules) (D : ModRules) (ts : List STok) : Option (List Desc) :=
  ((sourceText B C G D ts.length ts).find? fun x => x.2.isEmpty).map (·.1)

end Verif.Sv
