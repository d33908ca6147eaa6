import Verif.Vhdl.Grammar
import Verif.Vhdl.StmTree
/-!
# Model of the parser for VHDL sequential statements (grammars/vhdlParser.g4)

Every rule from `sequence_of_statements` to `null_statement` (lines 703-873) is one definition, in the same way as for expressions
(Verif/Vhdl/Grammar.lean): the list of all parses of a beginning of the tokens, in the order in which ANTLR prefers them. `E` are the
rules for names and expressions.
-/
namespace Verif.Vhdl
open P

/-- `{_input->LA(1) != t}?` -/
def notNext (t : VT) : P Unit
  | [] => [((), [])]
  | x :: r => if x.ty = t then [] else [((), x :: r)]

/-- Is the token there? -/
def flag (t : VT) : P Bool := opt (tok t) >>= fun o => pure o.isSome

/-- lines 1008, 1046: `label` is an identifier. -/
def label : P Str := identifier

/-- lines 726-727. -/
def sensitivityClause (E : Env) : P (List Name) := do
  let _ ← tok (.kw .ON)
  sepBy .COMMA E.name

/-- lines 723-730. -/
def waitStatement (E : Env) : P SeqKind := do
  let _ ← tok (.kw .WAIT)
  let on ← opt (sensitivityClause E)
  let u ← opt (tok (.kw .UNTIL) >>= fun _ => E.expression 0)
  let f ← opt (tok (.kw .FOR) >>= fun _ => E.expression 0)
  let _ ← tok .SEMI
  return .wait (on.getD []) u f

/-- lines 731-736. -/
def assertionStatement (E : Env) : P SeqKind := do
  let _ ← tok (.kw .ASSERT)
  let c ← E.expression 0
  let r ← opt (tok (.kw .REPORT) >>= fun _ => E.expression 0)
  let s ← opt (tok (.kw .SEVERITY) >>= fun _ => E.expression 0)
  let _ ← tok .SEMI
  return .assert_ c r s

/-- lines 737-740. -/
def reportStatement (E : Env) : P SeqKind := do
  let _ ← tok (.kw .REPORT)
  let e ← E.expression 0
  let s ← opt (tok (.kw .SEVERITY) >>= fun _ => E.expression 0)
  let _ ← tok .SEMI
  return .report e s

/-- line 760. -/
def forceMode : P ForceMode := toks [(.kw .IN, .in_), (.kw .OUT, .out)]

/-- lines 761-764. -/
def delayMechanism (E : Env) : P Delay := P.or
  (tok (.kw .TRANSPORT) >>= fun _ => pure .transport)
  (do
    let r ← opt (tok (.kw .REJECT) >>= fun _ => E.expression 0)
    let _ ← tok (.kw .INERTIAL)
    return .inertial r)

/-- lines 765-768. -/
def target (E : Env) : P Target := P.or
  (E.name >>= fun n => pure (.name n))
  (aggregate E >>= fun l => pure (.agg l))

/-- lines 773-776. `null` is also an expression (`Primary.null`), so the second alternative gives the same tree as the first one. -/
def waveformElement (E : Env) : P WaveElem := P.or
  (do
    let e ← E.expression 0
    let a ← opt (tok (.kw .AFTER) >>= fun _ => E.expression 0)
    return ⟨e, a⟩)
  (do
    let _ ← tok (.kw .NULL)
    let a ← opt (tok (.kw .AFTER) >>= fun _ => E.expression 0)
    return ⟨.simple (.prim .null), a⟩)

/-- The elements of a waveform (not empty). -/
def mkWaveform : List WaveElem → Waveform
  | [] => .unaffected
  | h :: t => .elems h t

/-- lines 769-772. -/
def waveform (E : Env) : P Waveform := P.or
  (sepBy .COMMA (waveformElement E) >>= fun l => pure (mkWaveform l))
  (tok (.kw .UNAFFECTED) >>= fun _ => pure .unaffected)

/-- lines 784-788 and 792-796 (`conditional_waveforms`, `conditional_expressions`): both rules are built in the same way from
`waveform` and `expression`. -/
def conditional {α : Type} (E : Env) (p : P α) : P ((α × Expression) × List (α × Expression) × Option α) := do
  let w ← p
  let _ ← tok (.kw .WHEN)
  let c ← E.expression 0
  let l ← many (do
    let _ ← tok (.kw .ELSE)
    let w ← p
    let _ ← tok (.kw .WHEN)
    let c ← E.expression 0
    return (w, c))
  let d ← P.or
    (tok (.kw .ELSE) >>= fun _ => p >>= fun w => pure (some w))
    (notNext (.kw .ELSE) >>= fun _ => pure none)
  return ((w, c), l, d)

/-- lines 784-788. -/
def conditionalWaveforms (E : Env) : P CondWaves := conditional E (waveform E) >>= fun x => pure ⟨x.1, x.2.1, x.2.2⟩

/-- lines 792-796. -/
def conditionalExpressions (E : Env) : P CondExprs := conditional E (E.expression 0) >>= fun x => pure ⟨x.1, x.2.1, x.2.2⟩

/-- line 689. -/
def choices (E : Env) : P (List Choice) := sepBy .BAR (choice E)

/-- lines 805-807 and 812-815 (`selected_waveforms`, `selected_expressions`). -/
def selected {α : Type} (E : Env) (p : P α) : P (List (α × List Choice)) := sepBy .COMMA do
  let w ← p
  let _ ← tok (.kw .WHEN)
  let c ← choices E
  return (w, c)

/-- lines 802, 809, 828: the head of a selected assignment. -/
def selectHead (E : Env) : P (Expression × Bool) := do
  let _ ← tok (.kw .WITH)
  let e ← E.expression 0
  let _ ← tok (.kw .SELECT)
  let q ← flag .QUESTIONMARK
  return (e, q)

/-- lines 751-753. -/
def simpleWaveformAssignment (E : Env) : P SigAssign := do
  let t ← target E
  let _ ← tok .CONASGN
  let d ← opt (delayMechanism E)
  let w ← waveform E
  let _ ← tok .SEMI
  return .wave t d w

/-- lines 754-756. -/
def simpleForceAssignment (E : Env) : P SigAssign := do
  let t ← target E
  let _ ← tok .CONASGN
  let _ ← tok (.kw .FORCE)
  let m ← opt forceMode
  let e ← E.expression 0
  let _ ← tok .SEMI
  return .force t m e

/-- lines 757-759. -/
def simpleReleaseAssignment (E : Env) : P SigAssign := do
  let t ← target E
  let _ ← tok .CONASGN
  let _ ← tok (.kw .RELEASE)
  let m ← opt forceMode
  let _ ← tok .SEMI
  return .release t m

/-- lines 781-783. -/
def conditionalWaveformAssignment (E : Env) : P SigAssign := do
  let t ← target E
  let _ ← tok .CONASGN
  let d ← opt (delayMechanism E)
  let c ← conditionalWaveforms E
  let _ ← tok .SEMI
  return .cond t d c

/-- lines 789-791. -/
def conditionalForceAssignment (E : Env) : P SigAssign := do
  let t ← target E
  let _ ← tok .CONASGN
  let _ ← tok (.kw .FORCE)
  let m ← opt forceMode
  let c ← conditionalExpressions E
  let _ ← tok .SEMI
  return .condForce t m c

/-- lines 801-804. -/
def selectedWaveformAssignment (E : Env) : P SigAssign := do
  let h ← selectHead E
  let t ← target E
  let _ ← tok .CONASGN
  let d ← opt (delayMechanism E)
  let l ← selected E (waveform E)
  let _ ← tok .SEMI
  return .sel h.1 h.2 t d l

/-- lines 808-811. -/
def selectedForceAssignment (E : Env) : P SigAssign := do
  let h ← selectHead E
  let t ← target E
  let _ ← tok .CONASGN
  let _ ← tok (.kw .FORCE)
  let m ← opt forceMode
  let l ← selected E (E.expression 0)
  let _ ← tok .SEMI
  return .selForce h.1 h.2 t m l

/-- lines 741-750, 777-780, 797-800: the alternatives of `signal_assignment_statement`, of which each has alternatives itself. -/
def signalAssignment (E : Env) : P SigAssign := alts [
  alts [simpleWaveformAssignment E, simpleForceAssignment E, simpleReleaseAssignment E],
  alts [conditionalWaveformAssignment E, conditionalForceAssignment E],
  alts [selectedWaveformAssignment E, selectedForceAssignment E]]

/-- lines 816-830. -/
def variableAssignment (E : Env) : P VarAssign := alts [
  do
    let t ← target E
    let _ ← tok .VARASGN
    let e ← E.expression 0
    let _ ← tok .SEMI
    return .simple t e,
  do
    let t ← target E
    let _ ← tok .VARASGN
    let c ← conditionalExpressions E
    let _ ← tok .SEMI
    return .cond t c,
  do
    let h ← selectHead E
    let t ← target E
    let _ ← tok .VARASGN
    let l ← selected E (E.expression 0)
    let _ ← tok .SEMI
    return .sel h.1 h.2 t l]

/-- lines 831-832. -/
def procedureCall (E : Env) : P SeqKind := do
  let n ← E.name
  let _ ← tok .SEMI
  return .call n

/-- lines 833-840, with the rule for statements. -/
def ifStatement (E : Env) (stm : P Seq) : P SeqKind := do
  let _ ← tok (.kw .IF)
  let c ← E.expression 0
  let _ ← tok (.kw .THEN)
  let t ← many stm
  let el ← many (do
    let _ ← tok (.kw .ELSIF)
    let c ← E.expression 0
    let _ ← tok (.kw .THEN)
    let l ← many stm
    return .mk c l)
  let f ← alts [
    tok (.kw .ELSE) >>= fun _ => many stm >>= fun l => pure (.some l),
    pure .none,
    notNext (.kw .ELSE) >>= fun _ => pure .none]
  let _ ← tok (.kw .END)
  let _ ← tok (.kw .IF)
  let l ← opt label
  let _ ← tok .SEMI
  return .if_ c t el f l

/-- lines 846-849. -/
def caseAlternative (E : Env) (stm : P Seq) : P CaseAlt := do
  let _ ← tok (.kw .WHEN)
  let c ← choices E
  let _ ← tok .ARROW
  let l ← many stm
  return .mk c l

/-- lines 841-845. -/
def caseStatement (E : Env) (stm : P Seq) : P SeqKind := do
  let _ ← tok (.kw .CASE)
  let q ← flag .QUESTIONMARK
  let e ← E.expression 0
  let _ ← tok (.kw .IS)
  let a ← caseAlternative E stm
  let l ← many (caseAlternative E stm)
  let _ ← tok (.kw .END)
  let _ ← tok (.kw .CASE)
  let _ ← opt (tok .QUESTIONMARK)
  let el ← opt label
  let _ ← tok .SEMI
  return .case_ q e (a :: l) el

/-- lines 855-861. -/
def iterationScheme (E : Env) : P Iter := P.or
  (tok (.kw .WHILE) >>= fun _ => E.expression 0 >>= fun c => pure (.while_ c))
  (do
    let _ ← tok (.kw .FOR)
    let i ← identifier
    let _ ← tok (.kw .IN)
    let d ← discreteRange E
    return .for_ i d)

/-- lines 850-854. -/
def loopStatement (E : Env) (stm : P Seq) : P SeqKind := do
  let it ← opt (iterationScheme E)
  let _ ← tok (.kw .LOOP)
  let l ← many stm
  let _ ← tok (.kw .END)
  let _ ← tok (.kw .LOOP)
  let el ← opt label
  let _ ← tok .SEMI
  return .loop (it.getD .forever) l el

/-- lines 862-867: `next` and `exit` with the keyword and the tree. -/
def nextExit (E : Env) (k : Kw) (f : Option Str → Option Expression → SeqKind) : P SeqKind := do
  let _ ← tok (.kw k)
  let l ← opt label
  let c ← opt (tok (.kw .WHEN) >>= fun _ => E.expression 0)
  let _ ← tok .SEMI
  return f l c

/-- lines 868-870. -/
def returnStatement (E : Env) : P SeqKind := do
  let _ ← tok (.kw .RETURN)
  let e ← opt (E.expression 0)
  let _ ← tok .SEMI
  return .ret e

/-- lines 871-873. -/
def nullStatement : P SeqKind := do
  let _ ← tok (.kw .NULL)
  let _ ← tok .SEMI
  return .null_

/-- lines 708-721. -/
def seqKind (E : Env) (stm : P Seq) : P SeqKind := alts [
  waitStatement E,
  assertionStatement E,
  reportStatement E,
  signalAssignment E >>= fun a => pure (.sig a),
  variableAssignment E >>= fun a => pure (.var a),
  procedureCall E,
  ifStatement E stm,
  caseStatement E stm,
  loopStatement E stm,
  nextExit E .NEXT .next,
  nextExit E .EXIT .exit,
  returnStatement E,
  nullStatement]

/-- lines 706-722, with the rule for the statements inside. -/
def seqRule (E : Env) (stm : P Seq) : P Seq := do
  let l ← opt (do let l ← label; let _ ← tok .COLON; return l)
  let s ← seqKind E stm
  return .mk l s

/-- lines 706-722, with nesting to depth `n`. -/
def seqStm (E : Env) : Nat → P Seq
  | 0 => fail
  | n + 1 => seqRule E (seqStm E n)

/-- The parse of `sequence_of_statements` (lines 703-705) ANTLR takes where `follow` says if the rest of the file can be parsed behind it. -/
def parseStatements (follow : List VTok → Bool) (ts : List VTok) : Option (List Seq × List VTok) :=
  (many (seqStm (env (4 * ts.length + 4)) ts.length) ts).find? fun x => follow x.2

end Verif.Vhdl
