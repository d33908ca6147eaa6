import Verif.Vhdl.StmGrammar
/-!
# Model of the parser for VHDL declarations, concurrent statements and design units (grammars/vhdlParser.g4)

The rest of the rules of the grammar (lines 151-628, 874-1045), in the same way as for expressions (Verif/Vhdl/Grammar.lean) and sequential
statements (Verif/Vhdl/StmGrammar.lean): the list of all parses of a beginning of the tokens, in the order in which ANTLR prefers them.
Trees leave out what the visitors do not look at (Verif/Vhdl/StmTree.lean), the rules read it nevertheless.
-/
namespace Verif.Vhdl
open P

/-- The rules on which declarations are built: `E` for names and expressions, `il` for `interface_list`, `seq` for `sequential_statement`. -/
structure Gr where
  E : Env
  il : P (List Intf)
  seq : P Seq

/-- lines 151-153. -/
def selectedName : P SelName := do
  let i ← identifier
  let l ← many (tok .DOT >>= fun _ => suffix)
  return ⟨i, l⟩

/-- line 343. -/
def identifierList : P (List Str) := sepBy .COMMA identifier

/-- lines 245-246. -/
def designator : P Designator := P.or
  (identifier >>= fun t => pure (.ident t))
  (tok .STRING_LITERAL >>= fun t => pure (.opSymbol t))

/-- lines 518-520. -/
def genericMap (E : Env) : P (List Assoc) := do
  let _ ← tok (.kw .GENERIC)
  let _ ← tok (.kw .MAP)
  associationList E

/-- lines 521-523. -/
def portMap (E : Env) : P (List Assoc) := do
  let _ ← tok (.kw .PORT)
  let _ ← tok (.kw .MAP)
  associationList E

/-- The value of a declaration: `( VARASGN expression )?`. -/
def initValue (E : Env) : P (Option Expression) := opt (tok .VARASGN >>= fun _ => E.expression 0)

/-! ## Interfaces -/

/-- line 457. -/
def signalMode : P Mode := toks [(.kw .IN, .in_), (.kw .OUT, .out), (.kw .INOUT, .inout), (.kw .BUFFER, .buffer), (.kw .LINKAGE, .linkage)]

/-- lines 445-447. -/
def interfaceConstant (E : Env) : P Intf := do
  let _ ← tok (.kw .CONSTANT)
  let ns ← identifierList
  let _ ← tok .COLON
  let i ← flag (.kw .IN)
  let t ← E.subInd
  let v ← initValue E
  return .const ⟨ns, t, v⟩ i

/-- lines 448-450. -/
def interfaceSignal (E : Env) : P Intf := do
  let kw ← flag (.kw .SIGNAL)
  let ns ← identifierList
  let _ ← tok .COLON
  let m ← opt signalMode
  let t ← E.subInd
  let b ← flag (.kw .BUS)
  let v ← initValue E
  return .sig kw ⟨ns, t, v⟩ m b

/-- lines 451-453. -/
def interfaceVariable (E : Env) : P Intf := do
  let _ ← tok (.kw .VARIABLE)
  let ns ← identifierList
  let _ ← tok .COLON
  let m ← opt signalMode
  let t ← E.subInd
  let v ← initValue E
  return .var ⟨ns, t, v⟩ m

/-- lines 454-456. -/
def interfaceFile (E : Env) : P Intf := do
  let _ ← tok (.kw .FILE)
  let ns ← identifierList
  let _ ← tok .COLON
  let t ← E.subInd
  return .file ns t

/-- lines 458-461. -/
def interfaceType : P Intf := do
  let _ ← tok (.kw .TYPE)
  let n ← identifier
  return .type n

/-- The text of a designator. -/
def Designator.str : Designator → Str
  | .ident t => t
  | .opSymbol t => t

/-- lines 235, 241-242, 471, 475: `( ( KW_PARAMETER )? LPAREN formal_parameter_list RPAREN )?`; `il`: the rule for interface lists. -/
def parameterList (il : P (List Intf)) : P (List Intf) := do
  let l ← opt (do
    let _ ← opt (tok (.kw .PARAMETER))
    let _ ← tok .LPAREN
    let l ← il
    let _ ← tok .RPAREN
    return l)
  return l.getD []

/-- lines 462-477; `il`: the rule for interface lists. -/
def interfaceSubprogram (E : Env) (il : P (List Intf)) : P Intf := do
  let n ← P.or
    (do
      let _ ← tok (.kw .PROCEDURE)
      let d ← designator
      let _ ← parameterList il
      return d)
    (do
      let _ ← opt (P.or (tok (.kw .PURE)) (tok (.kw .IMPURE)))
      let _ ← tok (.kw .FUNCTION)
      let d ← designator
      let _ ← parameterList il
      let _ ← tok (.kw .RETURN)
      let _ ← E.name
      return d)
  let _ ← opt (do
    let _ ← tok (.kw .IS)
    P.or (E.name >>= fun _ => pure ()) (tok .BOX >>= fun _ => pure ()))
  return .subprogram n.str

/-- lines 478-485. -/
def interfacePackage (E : Env) : P Intf := do
  let _ ← tok (.kw .PACKAGE)
  let n ← identifier
  let _ ← tok (.kw .IS)
  let _ ← tok (.kw .NEW)
  let _ ← E.name
  let _ ← alts [
    genericMap E >>= fun _ => pure (),
    do
      let _ ← tok (.kw .GENERIC)
      let _ ← tok (.kw .MAP)
      let _ ← tok .LPAREN
      let _ ← tok .BOX
      let _ ← tok .RPAREN
      return (),
    do
      let _ ← tok (.kw .GENERIC)
      let _ ← tok (.kw .MAP)
      let _ ← tok .LPAREN
      let _ ← tok (.kw .DEFAULT)
      let _ ← tok .RPAREN
      return ()]
  return .package n

/-- lines 432-443, 489. -/
def interfaceElement (E : Env) (il : P (List Intf)) : P Intf := alts [
  alts [interfaceConstant E, interfaceSignal E, interfaceVariable E, interfaceFile E],
  interfaceType,
  interfaceSubprogram E il,
  interfacePackage E]

/-- lines 486-488 with recursion (through subprograms) to depth `n`. -/
def interfaceList (E : Env) : Nat → P (List Intf)
  | 0 => fail
  | n + 1 => sepBy .SEMI (interfaceElement E (interfaceList E n))

/-- The rules with recursion to depth `n` (for expressions: 4 per token). -/
def gr (n : Nat) : Gr := ⟨env (4 * n + 4), interfaceList (env (4 * n + 4)) n, seqStm (env (4 * n + 4)) n⟩

/-- lines 490-493. -/
def genericClause (il : P (List Intf)) : P (List Intf) := do
  let _ ← tok (.kw .GENERIC)
  let _ ← tok .LPAREN
  let l ← il
  let _ ← tok .RPAREN
  let _ ← tok .SEMI
  return l

/-- lines 494-497. -/
def portClause (il : P (List Intf)) : P (List Intf) := do
  let _ ← tok (.kw .PORT)
  let _ ← tok .LPAREN
  let l ← il
  let _ ← tok .RPAREN
  let _ ← tok .SEMI
  return l

/-! ## Types -/

/-- line 301. -/
def enumerationLiteral : P EnumLit := P.or
  (identifier >>= fun t => pure (.ident t))
  (tok .CHARACTER_LITERAL >>= fun t => pure (.chr t))

/-- lines 298-300. -/
def enumerationType : P TypeDef := do
  let _ ← tok .LPAREN
  let l ← sepBy .COMMA enumerationLiteral
  let _ ← tok .RPAREN
  return .enum l

/-- lines 292, 302, 312. -/
def rangeConstraint (E : Env) : P Range := do
  let _ ← tok (.kw .RANGE)
  range E

/-- line 682. -/
def physicalLiteral (E : Env) : P PhysLit := do
  let l ← opt (P.or
    (tok .DECIMAL_LITERAL >>= fun t => pure (PhysLit.dec t))
    (tok .BASED_LITERAL >>= fun t => pure (PhysLit.based t)))
  let n ← E.name
  return (l.getD PhysLit.name) n

/-- lines 303-311. -/
def physicalType (E : Env) : P TypeDef := do
  let r ← rangeConstraint E
  let _ ← tok (.kw .UNITS)
  let p ← identifier
  let _ ← tok .SEMI
  let l ← many (do
    let i ← identifier
    let _ ← tok .EQ
    let x ← physicalLiteral E
    let _ ← tok .SEMI
    return (i, x))
  let _ ← tok (.kw .END)
  let _ ← tok (.kw .UNITS)
  let _ ← opt identifier
  return .phys r p l

/-- lines 320-323, 327. -/
def unboundedArray (E : Env) : P TypeDef := do
  let _ ← tok (.kw .ARRAY)
  let _ ← tok .LPAREN
  let l ← sepBy .COMMA (do
    let n ← E.name
    let _ ← tok (.kw .RANGE)
    let _ ← tok .BOX
    return n)
  let _ ← tok .RPAREN
  let _ ← tok (.kw .OF)
  let t ← E.subInd
  return .unbounded l t

/-- lines 324-326, 333. -/
def constrainedArray (E : Env) : P TypeDef := do
  let _ ← tok (.kw .ARRAY)
  let _ ← tok .LPAREN
  let l ← sepBy .COMMA (discreteRange E)
  let _ ← tok .RPAREN
  let _ ← tok (.kw .OF)
  let t ← E.subInd
  return .constrained l t

/-- lines 340-342, 344. -/
def elementDeclaration (E : Env) : P (List Str × SubInd) := do
  let ns ← identifierList
  let _ ← tok .COLON
  let t ← E.subInd
  let _ ← tok .SEMI
  return (ns, t)

/-- lines 335-339. -/
def recordType (E : Env) : P TypeDef := do
  let _ ← tok (.kw .RECORD)
  let a ← elementDeclaration E
  let l ← many (elementDeclaration E)
  let _ ← tok (.kw .END)
  let _ ← tok (.kw .RECORD)
  let _ ← opt identifier
  return .record (a :: l)

/-- line 349. -/
def accessType (E : Env) : P TypeDef := do
  let _ ← tok (.kw .ACCESS)
  let t ← E.subInd
  return .access t

/-- line 351. -/
def fileType (E : Env) : P TypeDef := do
  let _ ← tok (.kw .FILE)
  let _ ← tok (.kw .OF)
  let n ← E.name
  return .file n

/-- lines 352-373: protected types, whose contents the visitors do not look at; `d`: what can be declared in the declaration, `b`: what can be
declared in the body. -/
def protectedType (d b : P Decl) : P TypeDef := P.or
  (do
    let _ ← tok (.kw .PROTECTED)
    let _ ← many d
    let _ ← tok (.kw .END)
    let _ ← tok (.kw .PROTECTED)
    let _ ← opt identifier
    return .protected_)
  (do
    let _ ← tok (.kw .PROTECTED)
    let _ ← tok (.kw .BODY)
    let _ ← many b
    let _ ← tok (.kw .END)
    let _ ← tok (.kw .PROTECTED)
    let _ ← tok (.kw .BODY)
    let _ ← opt identifier
    return .protected_)

/-- lines 286-291, 313-319, 381-387. Integer and floating point types are the same rule twice. -/
def typeDefinition (E : Env) (d b : P Decl) : P TypeDef := alts [
  alts [
    enumerationType,
    rangeConstraint E >>= fun r => pure (.range r),
    rangeConstraint E >>= fun r => pure (.range r),
    physicalType E],
  alts [alts [unboundedArray E, constrainedArray E], recordType E],
  accessType E,
  fileType E,
  protectedType d b]

/-! ## Declarations -/

/-- lines 236-239 (`subprogram_header`): the generic list. -/
def subprogramHeader (G : Gr) : P (List Intf) := do
  let _ ← tok (.kw .GENERIC)
  let _ ← tok .LPAREN
  let l ← G.il
  let _ ← tok .RPAREN
  let _ ← opt (genericMap G.E)
  return l

/-- lines 227-244. -/
def subprogramSpecification (G : Gr) : P SubSpec := P.or
  (do
    let _ ← tok (.kw .PROCEDURE)
    let d ← designator
    let g ← opt (subprogramHeader G)
    let l ← parameterList G.il
    return .proc d (g.getD []) l)
  (do
    let i ← opt (toks [(.kw .PURE, false), (.kw .IMPURE, true)])
    let _ ← tok (.kw .FUNCTION)
    let d ← designator
    let g ← opt (subprogramHeader G)
    let l ← parameterList G.il
    let _ ← tok (.kw .RETURN)
    let t ← G.E.name
    return .func (i.getD false) d (g.getD []) l t)

/-- lines 224-226. -/
def subprogramDeclaration (G : Gr) : P Decl := do
  let s ← subprogramSpecification G
  let _ ← tok .SEMI
  return .subprogram s

/-- line 255. -/
def subprogramKind : P Unit := toks [(.kw .PROCEDURE, ()), (.kw .FUNCTION, ())]

/-- lines 248-254; `item`: the declarations inside. -/
def subprogramBody (G : Gr) (item : P Decl) : P Decl := do
  let s ← subprogramSpecification G
  let _ ← tok (.kw .IS)
  let d ← many item
  let _ ← tok (.kw .BEGIN)
  let l ← many G.seq
  let _ ← tok (.kw .END)
  let _ ← opt subprogramKind
  let _ ← opt designator
  let _ ← tok .SEMI
  return .subBody s d l

/-- lines 256-259. -/
def subprogramInstantiation (E : Env) : P Decl := do
  let _ ← subprogramKind
  let d ← designator
  let _ ← tok (.kw .IS)
  let _ ← tok (.kw .NEW)
  let _ ← E.name
  let _ ← opt (signature E)
  let _ ← opt (genericMap E)
  let _ ← tok .SEMI
  return .subInst d.str

/-- lines 263-270 from the name; `item`: the declarations inside. -/
def packageRest (G : Gr) (item : P Decl) : P (Str × List Intf × List Decl) := do
  let n ← identifier
  let _ ← tok (.kw .IS)
  let g ← opt (do
    let g ← genericClause G.il
    let _ ← opt (genericMap G.E >>= fun _ => tok .SEMI)
    return g)
  let d ← many item
  let _ ← tok (.kw .END)
  let _ ← opt (tok (.kw .PACKAGE))
  let _ ← opt identifier
  let _ ← tok .SEMI
  return (n, g.getD [], d)

/-- lines 263-270. -/
def packageDeclaration (G : Gr) (item : P Decl) : P (Str × List Intf × List Decl) := do
  let _ ← tok (.kw .PACKAGE)
  packageRest G item

/-- lines 277-281; `item`: the declarations inside. -/
def packageBodyRule (item : P Decl) : P (Str × List Decl) := do
  let _ ← tok (.kw .PACKAGE)
  let _ ← tok (.kw .BODY)
  let n ← identifier
  let _ ← tok (.kw .IS)
  let d ← many item
  let _ ← tok (.kw .END)
  let _ ← opt (tok (.kw .PACKAGE) >>= fun _ => tok (.kw .BODY))
  let _ ← opt identifier
  let _ ← tok .SEMI
  return (n, d)

/-- lines 282-285. -/
def packageInstantiation (E : Env) : P Str := do
  let _ ← tok (.kw .PACKAGE)
  let n ← identifier
  let _ ← tok (.kw .IS)
  let _ ← tok (.kw .NEW)
  let _ ← E.name
  let _ ← opt (genericMap E)
  let _ ← tok .SEMI
  return n

/-- lines 374-380; `d`, `b`: declarations in protected types. -/
def typeDeclaration (E : Env) (d b : P Decl) : P Decl := P.or
  (do
    let _ ← tok (.kw .TYPE)
    let n ← identifier
    let _ ← tok (.kw .IS)
    let t ← typeDefinition E d b
    let _ ← tok .SEMI
    return .type n t)
  (do
    let _ ← tok (.kw .TYPE)
    let n ← identifier
    let _ ← tok .SEMI
    return .typeIncomplete n)

/-- lines 386-388. -/
def subtypeDeclaration (E : Env) : P Decl := do
  let _ ← tok (.kw .SUBTYPE)
  let n ← identifier
  let _ ← tok (.kw .IS)
  let t ← E.subInd
  let _ ← tok .SEMI
  return .subtype n t

/-- lines 415-417. -/
def constantDeclaration (E : Env) : P Decl := do
  let _ ← tok (.kw .CONSTANT)
  let ns ← identifierList
  let _ ← tok .COLON
  let t ← E.subInd
  let v ← initValue E
  let _ ← tok .SEMI
  return .constant ⟨ns, t, v⟩

/-- lines 418-421. -/
def signalDeclaration (E : Env) : P Decl := do
  let _ ← tok (.kw .SIGNAL)
  let ns ← identifierList
  let _ ← tok .COLON
  let t ← E.subInd
  let k ← opt (P.or (tok (.kw .REGISTER)) (tok (.kw .BUS)))
  let v ← initValue E
  let _ ← tok .SEMI
  return .signal ⟨ns, t, v⟩ k.isSome

/-- lines 422-424. -/
def variableDeclaration (E : Env) : P Decl := do
  let s ← flag (.kw .SHARED)
  let _ ← tok (.kw .VARIABLE)
  let ns ← identifierList
  let _ ← tok .COLON
  let t ← E.subInd
  let v ← initValue E
  let _ ← tok .SEMI
  return .variable s ⟨ns, t, v⟩

/-- lines 425-431. -/
def fileDeclaration (E : Env) : P Decl := do
  let _ ← tok (.kw .FILE)
  let ns ← identifierList
  let _ ← tok .COLON
  let t ← E.subInd
  let _ ← opt (do
    let _ ← opt (tok (.kw .OPEN) >>= fun _ => E.expression 0)
    let _ ← tok (.kw .IS)
    let _ ← opt (P.or (tok (.kw .IN)) (tok (.kw .OUT)))
    E.expression 0)
  let _ ← tok .SEMI
  return .file ns t

/-- lines 527, 575: `alias_designator`, `entity_tag`. -/
def entityTag : P Str := alts [identifier, tok .CHARACTER_LITERAL, tok .STRING_LITERAL]

/-- lines 524-526. -/
def aliasDeclaration (E : Env) : P Decl := do
  let _ ← tok (.kw .ALIAS)
  let d ← entityTag
  let t ← opt (tok .COLON >>= fun _ => E.subInd)
  let _ ← tok (.kw .IS)
  let n ← E.name
  let s ← opt (signature E)
  let _ ← tok .SEMI
  return .alias_ d t n s.isSome

/-- lines 528-530. -/
def attributeDeclaration (E : Env) : P Decl := do
  let _ ← tok (.kw .ATTRIBUTE)
  let n ← identifier
  let _ ← tok .COLON
  let _ ← E.name
  let _ ← tok .SEMI
  return .attrDecl n

/-- lines 553-573. -/
def entityClass : P Unit := toks ([.ENTITY, .ARCHITECTURE, .CONFIGURATION, .PROCEDURE, .FUNCTION, .PACKAGE, .TYPE, .SUBTYPE, .CONSTANT,
  .SIGNAL, .VARIABLE, .COMPONENT, .LABEL, .LITERAL, .UNITS, .GROUP, .FILE, .PROPERTY, .SEQUENCE].map fun k => (.kw k, ()))

/-- lines 547-552, 574-580. -/
def attributeSpecification (E : Env) : P Decl := do
  let _ ← tok (.kw .ATTRIBUTE)
  let n ← attributeDesignator
  let _ ← tok (.kw .OF)
  let _ ← alts [
    sepBy .COMMA (do let _ ← entityTag; let _ ← opt (signature E); return ()) >>= fun _ => pure (),
    tok (.kw .OTHERS) >>= fun _ => pure (),
    tok (.kw .ALL) >>= fun _ => pure ()]
  let _ ← tok .COLON
  let _ ← entityClass
  let _ ← tok (.kw .IS)
  let _ ← E.expression 0
  let _ ← tok .SEMI
  return .attrSpec n

/-- lines 1009-1011. -/
def useClause : P (List SelName) := do
  let _ ← tok (.kw .USE)
  let l ← sepBy .COMMA selectedName
  let _ ← tok .SEMI
  return l

/-- lines 537-543. -/
def groupTemplate : P Decl := do
  let _ ← tok (.kw .GROUP)
  let n ← identifier
  let _ ← tok (.kw .IS)
  let _ ← tok .LPAREN
  let _ ← sepBy .COMMA (do let _ ← entityClass; let _ ← opt (tok .BOX); return ())
  let _ ← tok .RPAREN
  let _ ← tok .SEMI
  return .groupTemplate n

/-- lines 544-546. -/
def groupDeclaration (E : Env) : P Decl := do
  let _ ← tok (.kw .GROUP)
  let n ← identifier
  let _ ← tok .COLON
  let _ ← E.name
  let _ ← tok .LPAREN
  let _ ← sepBy .COMMA E.name
  let _ ← tok .RPAREN
  let _ ← tok .SEMI
  return .group n

/-- lines 362-367. -/
def protectedItem (G : Gr) : P Decl := alts [
  subprogramDeclaration G,
  subprogramInstantiation G.E,
  attributeSpecification G.E,
  useClause >>= fun l => pure (.use l)]

/-- lines 531-536. -/
def componentDeclaration (G : Gr) : P Decl := do
  let _ ← tok (.kw .COMPONENT)
  let n ← identifier
  let _ ← opt (tok (.kw .IS))
  let g ← opt (genericClause G.il)
  let p ← opt (portClause G.il)
  let _ ← tok (.kw .END)
  let _ ← tok (.kw .COMPONENT)
  let _ ← opt identifier
  let _ ← tok .SEMI
  return .component n (g.getD []) (p.getD [])

/-- lines 619-628. -/
def disconnectionSpecification (E : Env) : P Decl := do
  let _ ← tok (.kw .DISCONNECT)
  let _ ← alts [
    sepBy .COMMA E.name >>= fun _ => pure (),
    tok (.kw .OTHERS) >>= fun _ => pure (),
    tok (.kw .ALL) >>= fun _ => pure ()]
  let _ ← tok .COLON
  let _ ← E.name
  let _ ← tok (.kw .AFTER)
  let _ ← E.expression 0
  let _ ← tok .SEMI
  return .disconnect

/-- lines 594-601. -/
def componentSpecification (E : Env) : P Unit := do
  let _ ← alts [
    sepBy .COMMA label >>= fun _ => pure (),
    tok (.kw .OTHERS) >>= fun _ => pure (),
    tok (.kw .ALL) >>= fun _ => pure ()]
  let _ ← tok .COLON
  let _ ← E.name
  return ()

/-- lines 602-611. -/
def bindingIndication (E : Env) : P Unit := do
  let _ ← opt (do
    let _ ← tok (.kw .USE)
    alts [
      do
        let _ ← tok (.kw .ENTITY)
        let _ ← E.name
        let _ ← opt (do let _ ← tok .LPAREN; let _ ← identifier; tok .RPAREN)
        return (),
      tok (.kw .CONFIGURATION) >>= fun _ => E.name >>= fun _ => pure (),
      tok (.kw .OPEN) >>= fun _ => pure ()])
  let _ ← opt (genericMap E)
  let _ ← opt (portMap E)
  return ()

/-- lines 612-615. -/
def verificationUnitBinding (E : Env) : P Unit := do
  let _ ← tok (.kw .USE)
  let _ ← tok (.kw .VUNIT)
  let _ ← sepBy .COMMA E.name
  return ()

/-- lines 581-593. -/
def configurationSpecification (E : Env) : P Decl := P.or
  (do
    let _ ← tok (.kw .FOR)
    let _ ← componentSpecification E
    let _ ← bindingIndication E
    let _ ← tok .SEMI
    let _ ← opt (do let _ ← tok (.kw .END); let _ ← tok (.kw .FOR); tok .SEMI)
    return .configSpec)
  (do
    let _ ← tok (.kw .FOR)
    let _ ← componentSpecification E
    let _ ← bindingIndication E
    let _ ← tok .SEMI
    let _ ← verificationUnitBinding E
    let _ ← tok .SEMI
    let _ ← many (verificationUnitBinding E >>= fun _ => tok .SEMI)
    let _ ← tok (.kw .END)
    let _ ← tok (.kw .FOR)
    let _ ← tok .SEMI
    return .configSpec)

/-- The rules for declarations that contain declarations: `proc` for `process_declarative_item`, `pkg` for `package_declarative_item`. -/
structure Items where
  proc : P Decl
  pkg : P Decl

/-- lines 909-925; `I`: the rules for the declarations inside. -/
def commonItem (G : Gr) (I : Items) : P Decl := alts [
  subprogramDeclaration G,
  subprogramInstantiation G.E,
  packageDeclaration G I.pkg >>= fun x => pure (.package x.1 x.2.1 x.2.2),
  packageInstantiation G.E >>= fun n => pure (.packageInst n),
  typeDeclaration G.E (protectedItem G) I.proc,
  subtypeDeclaration G.E,
  constantDeclaration G.E,
  variableDeclaration G.E,
  fileDeclaration G.E,
  aliasDeclaration G.E,
  attributeDeclaration G.E,
  attributeSpecification G.E,
  useClause >>= fun l => pure (.use l),
  groupTemplate,
  groupDeclaration G.E]

/-- lines 926-930. -/
def processItem (G : Gr) (I : Items) : P Decl := alts [
  commonItem G I,
  subprogramBody G I.proc,
  packageBodyRule I.proc >>= fun x => pure (.packageBody x.1 x.2)]

/-- lines 271-276. -/
def packageItem (G : Gr) (I : Items) : P Decl := alts [
  commonItem G I,
  signalDeclaration G.E,
  componentDeclaration G,
  disconnectionSpecification G.E]

/-- The rules for declarations with recursion to depth `n`. -/
def items (G : Gr) : Nat → Items
  | 0 => ⟨fail, fail⟩
  | n + 1 => ⟨processItem G (items G n), packageItem G (items G n)⟩

/-- lines 162-166. -/
def entityItem (G : Gr) (I : Items) : P Decl := alts [signalDeclaration G.E, I.proc, disconnectionSpecification G.E]

/-- lines 182-186. -/
def blockItem (G : Gr) (I : Items) : P Decl := alts [entityItem G I, componentDeclaration G, configurationSpecification G.E]

/-! ## Concurrent statements -/

/-- line 908. -/
def processSensitivity (E : Env) : P ProcSens := P.or
  (tok (.kw .ALL) >>= fun _ => pure .all)
  (sepBy .COMMA E.name >>= fun l => pure (.names l))

/-- lines 901-907. -/
def processStatement (G : Gr) (I : Items) : P ConcKind := do
  let p ← flag (.kw .POSTPONED)
  let _ ← tok (.kw .PROCESS)
  let s ← opt (do
    let _ ← tok .LPAREN
    let s ← processSensitivity G.E
    let _ ← tok .RPAREN
    return s)
  let _ ← opt (tok (.kw .IS))
  let d ← many I.proc
  let _ ← tok (.kw .BEGIN)
  let l ← many G.seq
  let _ ← tok (.kw .END)
  let _ ← opt (tok (.kw .POSTPONED))
  let _ ← tok (.kw .PROCESS)
  let _ ← opt label
  let _ ← tok .SEMI
  return .process p (s.getD .none) d l

/-- lines 931-933, 831-832. -/
def concurrentCall (E : Env) : P ConcKind := do
  let p ← flag (.kw .POSTPONED)
  let n ← E.name
  let _ ← tok .SEMI
  return .call p n

/-- An assertion as a concurrent statement (lines 934-936). `assertionStatement` only yields the first case, the second is not reachable. -/
def mkAssert (p : Bool) : SeqKind → ConcKind
  | .assert_ c r s => .assert_ p c r s
  | _ => .call p .external

/-- lines 934-936. -/
def concurrentAssertion (E : Env) : P ConcKind := do
  let p ← flag (.kw .POSTPONED)
  let s ← assertionStatement E
  return mkAssert p s

/-- lines 946-949. -/
def concurrentAssignAny (E : Env) (p : Bool) : P ConcKind := do
  let t ← target E
  let _ ← tok .CONASGN
  let g ← flag (.kw .GUARDED)
  let d ← opt (delayMechanism E)
  let k ← P.or
    (waveform E >>= fun w => pure (ConcKind.assign p g t d w))
    (conditionalWaveforms E >>= fun c => pure (ConcKind.assignCond p g t d c))
  let _ ← tok .SEMI
  return k

/-- lines 951-954. -/
def concurrentSelected (E : Env) (p : Bool) : P ConcKind := do
  let h ← selectHead E
  let t ← target E
  let _ ← tok .CONASGN
  let g ← flag (.kw .GUARDED)
  let d ← opt (delayMechanism E)
  let l ← selected E (waveform E)
  let _ ← tok .SEMI
  return .assignSel p g h.1 h.2 t d l

/-- lines 940-945. -/
def concurrentAssignment (E : Env) : P ConcKind := do
  let p ← flag (.kw .POSTPONED)
  P.or (concurrentAssignAny E p) (concurrentSelected E p)

/-- lines 874-879. -/
def concKind (G : Gr) (I : Items) : P ConcKind := alts [
  processStatement G I,
  concurrentCall G.E,
  concurrentAssertion G.E,
  concurrentAssignment G.E]

/-- lines 895-900 (`block_header`): the generics and the ports. -/
def blockHeader (G : Gr) : P (List Intf × List Intf) := do
  let g ← opt (do
    let g ← genericClause G.il
    let _ ← opt (genericMap G.E >>= fun _ => tok .SEMI)
    return g)
  let p ← opt (do
    let p ← portClause G.il
    let _ ← opt (portMap G.E >>= fun _ => tok .SEMI)
    return p)
  return (g.getD [], p.getD [])

/-- lines 887-894; `conc`: the statements inside. -/
def blockStatement (G : Gr) (I : Items) (conc : P Conc) (l : Str) : P Conc := do
  let _ ← tok (.kw .BLOCK)
  let c ← opt (do
    let _ ← tok .LPAREN
    let c ← G.E.expression 0
    let _ ← tok .RPAREN
    return c)
  let _ ← opt (tok (.kw .IS))
  let h ← blockHeader G
  let d ← many (blockItem G I)
  let _ ← tok (.kw .BEGIN)
  let s ← many conc
  let _ ← tok (.kw .END)
  let _ ← tok (.kw .BLOCK)
  let _ ← opt label
  let _ ← tok .SEMI
  return .block l c h.1 h.2 d s

/-- lines 960-964. -/
def instantiatedUnit (E : Env) : P InstUnit := alts [
  do
    let c ← flag (.kw .COMPONENT)
    let n ← E.name
    return .component c n,
  do
    let _ ← tok (.kw .ENTITY)
    let n ← E.name
    let a ← opt (do
      let _ ← tok .LPAREN
      let i ← identifier
      let _ ← tok .RPAREN
      return i)
    return .entity n a,
  do
    let _ ← tok (.kw .CONFIGURATION)
    let n ← E.name
    return .config n]

/-- lines 955-959. -/
def componentInstantiation (E : Env) (l : Str) : P Conc := do
  let u ← instantiatedUnit E
  let g ← opt (genericMap E)
  let p ← opt (portMap E)
  let _ ← tok .SEMI
  return .inst l u g p

/-- lines 1001-1007. -/
def generateBody (G : Gr) (I : Items) (conc : P Conc) : P GenBody := P.or
  (do
    let d ← many (blockItem G I)
    let _ ← tok (.kw .BEGIN)
    let s ← many conc
    return .mk d true s)
  (many conc >>= fun s => pure (.mk [] false s))

/-- lines 993-1000. -/
def generateBodyEnd (G : Gr) (I : Items) (conc : P Conc) : P GenBody := P.or
  (do
    let d ← many (blockItem G I)
    let _ ← tok (.kw .BEGIN)
    let s ← many conc
    let _ ← tok (.kw .END)
    let _ ← opt label
    let _ ← tok .SEMI
    return .mk d true s)
  (many conc >>= fun s => pure (.mk [] false s))

/-- `( label COLON )?` -/
def optLabel : P (Option Str) := opt (do let l ← label; let _ ← tok .COLON; return l)

/-- `KW_END KW_GENERATE ( label )? SEMI` -/
def endGenerate : P (Option Str) := do
  let _ ← tok (.kw .END)
  let _ ← tok (.kw .GENERATE)
  let l ← opt label
  let _ ← tok .SEMI
  return l

/-- lines 970-974, 859-861. -/
def forGenerate (G : Gr) (I : Items) (conc : P Conc) (l : Str) : P Conc := do
  let _ ← tok (.kw .FOR)
  let i ← identifier
  let _ ← tok (.kw .IN)
  let d ← discreteRange G.E
  let _ ← tok (.kw .GENERATE)
  let b ← generateBody G I conc
  let e ← endGenerate
  return .forGen l i d b e

/-- lines 976-979: a condition behind `k` with its body. -/
def generateCond (G : Gr) (I : Items) (conc : P Conc) (k : Kw) : P GenCond := do
  let _ ← tok (.kw k)
  let l ← optLabel
  let c ← G.E.expression 0
  let _ ← tok (.kw .GENERATE)
  let b ← generateBody G I conc
  return .mk l c b

/-- lines 975-983. -/
def ifGenerate (G : Gr) (I : Items) (conc : P Conc) (l : Str) : P Conc := do
  let c ← generateCond G I conc .IF
  let el ← many (generateCond G I conc .ELSIF)
  let f ← P.or
    (do
      let _ ← tok (.kw .ELSE)
      let l ← optLabel
      let _ ← tok (.kw .GENERATE)
      let b ← generateBody G I conc
      return GenElse.some l b)
    (notNext (.kw .ELSE) >>= fun _ => pure GenElse.none)
  let e ← endGenerate
  return .ifGen l c el f e

/-- lines 989-992. -/
def generateAlternative (G : Gr) (I : Items) (conc : P Conc) : P GenAlt := do
  let _ ← tok (.kw .WHEN)
  let l ← optLabel
  let c ← choices G.E
  let _ ← tok .ARROW
  let b ← generateBodyEnd G I conc
  return .mk l c b

/-- lines 984-988. -/
def caseGenerate (G : Gr) (I : Items) (conc : P Conc) (l : Str) : P Conc := do
  let _ ← tok (.kw .CASE)
  let c ← G.E.expression 0
  let _ ← tok (.kw .GENERATE)
  let a ← generateAlternative G I conc
  let r ← many (generateAlternative G I conc)
  let e ← endGenerate
  return .caseGen l c (a :: r) e

/-- lines 965-969. -/
def generateStatement (G : Gr) (I : Items) (conc : P Conc) (l : Str) : P Conc := alts [
  forGenerate G I conc l,
  ifGenerate G I conc l,
  caseGenerate G I conc l]

/-- lines 880-886, with the rule for the statements inside. -/
def concRule (G : Gr) (I : Items) (conc : P Conc) : P Conc := P.or
  (do
    let l ← label
    let _ ← tok .COLON
    alts [
      blockStatement G I conc l,
      componentInstantiation G.E l,
      generateStatement G I conc l,
      concKind G I >>= fun s => pure (.plain (some l) s)])
  (concKind G I >>= fun s => pure (.plain none s))

/-- lines 880-886, with nesting to depth `n`. -/
def concStm (G : Gr) (I : Items) : Nat → P Conc
  | 0 => fail
  | n + 1 => concRule G I (concStm G I n)

/-! ## Design units -/

/-- lines 167-174. -/
def entityStatement (G : Gr) (I : Items) : P Conc := do
  let l ← optLabel
  let s ← alts [concurrentAssertion G.E, concurrentCall G.E, processStatement G I]
  return .plain l s

/-- lines 154-161. -/
def entityDeclaration (G : Gr) (I : Items) : P LibUnit := do
  let _ ← tok (.kw .ENTITY)
  let n ← identifier
  let _ ← tok (.kw .IS)
  let g ← opt (genericClause G.il)
  let p ← opt (portClause G.il)
  let d ← many (entityItem G I)
  let s ← opt (tok (.kw .BEGIN) >>= fun _ => many (entityStatement G I))
  let _ ← tok (.kw .END)
  let _ ← opt (tok (.kw .ENTITY))
  let _ ← opt identifier
  let _ ← tok .SEMI
  return .entity n (g.getD []) (p.getD []) d (s.getD [])

/-- lines 175-181. -/
def architectureBody (G : Gr) (I : Items) (conc : P Conc) : P LibUnit := do
  let _ ← tok (.kw .ARCHITECTURE)
  let n ← identifier
  let _ ← tok (.kw .OF)
  let e ← G.E.name
  let _ ← tok (.kw .IS)
  let d ← many (blockItem G I)
  let _ ← tok (.kw .BEGIN)
  let s ← many conc
  let _ ← tok (.kw .END)
  let _ ← opt (tok (.kw .ARCHITECTURE))
  let _ ← opt identifier
  let _ ← tok .SEMI
  return .arch n e d s

/-- lines 200-216 with nesting to depth `n`. -/
def blockConfiguration (E : Env) : Nat → P Unit
  | 0 => fail
  | n + 1 => do
    let _ ← tok (.kw .FOR)
    let _ ← label
    let _ ← opt (do
      let _ ← tok .LPAREN
      let _ ← alts [
        discreteRange E >>= fun _ => pure (),
        E.expression 0 >>= fun _ => pure (),
        label >>= fun _ => pure ()]
      tok .RPAREN)
    let _ ← many useClause
    let _ ← many (P.or
      (blockConfiguration E n)
      (do
        let _ ← tok (.kw .FOR)
        let _ ← componentSpecification E
        let _ ← opt (bindingIndication E >>= fun _ => tok .SEMI)
        let _ ← many (verificationUnitBinding E >>= fun _ => tok .SEMI)
        let _ ← opt (blockConfiguration E n)
        let _ ← tok (.kw .END)
        let _ ← tok (.kw .FOR)
        let _ ← tok .SEMI
        return ()))
    let _ ← tok (.kw .END)
    let _ ← tok (.kw .FOR)
    let _ ← tok .SEMI
    return ()

/-- lines 187-199. -/
def configurationDeclaration (E : Env) (n : Nat) : P LibUnit := do
  let _ ← tok (.kw .CONFIGURATION)
  let i ← identifier
  let _ ← tok (.kw .OF)
  let _ ← E.name
  let _ ← tok (.kw .IS)
  let _ ← many (alts [
    useClause >>= fun l => pure (Decl.use l),
    attributeSpecification E,
    groupDeclaration E])
  let _ ← many (verificationUnitBinding E >>= fun _ => tok .SEMI)
  let _ ← blockConfiguration E n
  let _ ← tok (.kw .END)
  let _ ← opt (tok (.kw .CONFIGURATION))
  let _ ← opt identifier
  let _ ← tok .SEMI
  return .config i

/-- lines 1030-1031, 1038-1045. -/
def contextItem : P ContextItem := alts [
  do
    let _ ← tok (.kw .LIBRARY)
    let l ← identifierList
    let _ ← tok .SEMI
    return .library l,
  useClause >>= fun l => pure (.use l),
  do
    let _ ← tok (.kw .CONTEXT)
    let l ← sepBy .COMMA selectedName
    let _ ← tok .SEMI
    return .contextRef l]

/-- lines 1032-1037. -/
def contextDeclaration : P LibUnit := do
  let _ ← tok (.kw .CONTEXT)
  let n ← identifier
  let _ ← tok (.kw .IS)
  let _ ← many contextItem
  let _ ← tok (.kw .END)
  let _ ← opt (tok (.kw .CONTEXT))
  let _ ← opt identifier
  let _ ← tok .SEMI
  return .context n

/-- lines 1015-1029. -/
def libraryUnit (G : Gr) (I : Items) (conc : P Conc) (n : Nat) : P LibUnit := P.or
  (alts [
    entityDeclaration G I,
    configurationDeclaration G.E n,
    packageDeclaration G I.pkg >>= fun x => pure (.package x.1 x.2.1 x.2.2),
    packageInstantiation G.E >>= fun n => pure (.packageInst n),
    contextDeclaration])
  (P.or (architectureBody G I conc) (packageBodyRule I.proc >>= fun x => pure (.packageBody x.1 x.2)))

/-- line 1014. -/
def designUnit (G : Gr) (I : Items) (conc : P Conc) (n : Nat) : P DesignUnit := do
  let c ← many contextItem
  let u ← libraryUnit G I conc n
  return ⟨c, u⟩

/-- The parse of `design_file` (line 1013) ANTLR takes; `none`: a syntax error. -/
def parseFile (ts : List VTok) : Option (List DesignUnit) :=
  let n := ts.length
  let G := gr n
  let I := items G n
  ((many (designUnit G I (concStm G I n) n) ts).find? fun x => x.2.isEmpty).map (·.1)

end Verif.Vhdl
