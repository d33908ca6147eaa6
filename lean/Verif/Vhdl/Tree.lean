import Verif.Literals
/-!
# VHDL expressions: parse trees (grammars/vhdlParser.g4)

One type per grammar rule, as far as the visitors look at it. Tokens carry their text. How ANTLR builds a tree from the tokens
(precedence, ambiguities) is in `Vhdl/Grammar.lean`.
-/
namespace Verif.Vhdl

/-- vhdlParser.g4 671-675: the operator tokens. -/
inductive LogOp | and | or | nand | nor | xor | xnor
deriving DecidableEq, Repr
/-- vhdlParser.g4 671. `le` is the token `CONASGN`. -/
inductive RelOp | eq | ne | lt | le | gt | ge | eqMatch | neMatch | ltMatch | leMatch | gtMatch | geMatch
deriving DecidableEq, Repr
/-- vhdlParser.g4 672. -/
inductive ShiftOp | sll | srl | sla | sra | rol | ror
deriving DecidableEq, Repr
/-- vhdlParser.g4 673. -/
inductive AddOp | plus | minus | amp
deriving DecidableEq, Repr
/-- vhdlParser.g4 674. -/
inductive SignOp | plus | minus
deriving DecidableEq, Repr
/-- vhdlParser.g4 675. -/
inductive MulOp | mul | div | mod | rem
deriving DecidableEq, Repr

/-- vhdlParser.g4 116-121 (`name_literal`). -/
inductive NameLit
  | ident (t : Str)
  | opSymbol (t : Str)
  | chr (t : Str)
deriving DecidableEq, Repr

/-- vhdlParser.g4 142-145 (`suffix`). -/
inductive Suffix
  | lit (l : NameLit)
  | all
deriving DecidableEq, Repr

mutual
/-- vhdlParser.g4 122-131 (`name`). -/
inductive Name
  | lit (l : NameLit)
  | external
  | slice (n : Name) (r : ERange)
  | attr (n : Name) (signature : Bool) (designator : Str)
  | dot (n : Name) (s : Suffix)
  | assoc (n : Name) (l : List Assoc)
/-- vhdlParser.g4 147-149 (`explicit_range`). -/
inductive ERange
  | mk (a : Simple) (downto : Bool) (b : Simple)
/-- vhdlParser.g4 501-506 (`association_element`, `formal_part`). -/
inductive Assoc
  | pos (a : Actual)
  | named (f : Name) (a : Actual)
  | namedConv (f g : Name) (a : Actual)
/-- vhdlParser.g4 508-511 (`actual_part`). -/
inductive Actual
  | desig (d : Desig)
  | conv (n : Name) (d : Desig)
/-- vhdlParser.g4 512-516 (`actual_designator`). -/
inductive Desig
  | opn
  | sub (s : SubInd)
  | expr (e : Expression)
/-- vhdlParser.g4 389-395 (`subtype_indication`); `constraint` absent: `Constr.none`. -/
inductive SubInd
  | mk (r : Resol) (typeMark : Name) (c : Constr)
/-- vhdlParser.g4 392-395 (`resolution_indication`). -/
inductive Resol
  | none
  | name (n : Name)
  | element
/-- vhdlParser.g4 401-408 (`constraint`, `element_constraint`). -/
inductive Constr
  | none
  | range (r : Range)
  | array (a : ArrC)
  | record
/-- vhdlParser.g4 293-296 (`range`). -/
inductive Range
  | attr (n : Name) (signature : Bool) (designator : Str)
  | expl (r : ERange)
/-- vhdlParser.g4 328-333 (`array_constraint`, `index_constraint`). The constraint of the elements is never a range. -/
inductive ArrC
  | index (l : List Discr) (e : ElemC)
  | opn (e : ElemC)
/-- vhdlParser.g4 332, 405-408 (`array_element_constraint`), absent: `none`. -/
inductive ElemC
  | none
  | array (a : ArrC)
  | record
/-- vhdlParser.g4 334 (`discrete_range`). -/
inductive Discr
  | sub (s : SubInd)
  | range (r : Range)
/-- vhdlParser.g4 647-653 (`expression`). -/
inductive Expression
  | cond (p : Primary)
  | simple (s : Simple)
  | shift (a : Expression) (o : ShiftOp) (b : Expression)
  | rel (a : Expression) (o : RelOp) (b : Expression)
  | logic (a : Expression) (o : LogOp) (b : Expression)
/-- vhdlParser.g4 654-660 (`simple_expression`). -/
inductive Simple
  | prim (p : Primary)
  | pow (a b : Primary)
  | abs (s : Simple)
  | not (s : Simple)
  | logic (o : LogOp) (s : Simple)
  | sign (o : SignOp) (s : Simple)
  | mul (a : Simple) (o : MulOp) (b : Simple)
  | add (a : Simple) (o : AddOp) (b : Simple)
/-- vhdlParser.g4 661-669, 677-681 (`primary`, `numeric_literal`). -/
inductive Primary
  | name (n : Name)
  | dec (t : Str)
  | decUnit (t : Str) (n : Name)
  | based (t : Str)
  | basedUnit (t : Str) (n : Name)
  | bits (t : Str)
  | null
  | newSub (s : SubInd)
  | newQual (t : Name) (l : List Elem)
  | agg (l : List Elem)
  | qual (t : Name) (l : List Elem)
/-- vhdlParser.g4 686-689 (`element_association`, `choices`). -/
inductive Elem
  | pos (e : Expression)
  | named (l : List Choice) (e : Expression)
/-- vhdlParser.g4 691-695 (`choice`). -/
inductive Choice
  | discr (d : Discr)
  | simple (s : Simple)
  | others
end

/-- vhdlParser.g4 773-776 (`waveform_element`). The second alternative is never used: `null` is also an expression. -/
structure WaveElem where
  value : Expression
  after : Option Expression

/-- vhdlParser.g4 769-772 (`waveform`); the list of elements is not empty. -/
inductive Waveform
  | unaffected
  | elems (h : WaveElem) (t : List WaveElem)

/-- vhdlParser.g4 784-788 (`conditional_waveforms`): `waveform WHEN condition (ELSE waveform WHEN condition)* (ELSE waveform)?`. -/
structure CondWaves where
  head : Waveform × Expression
  tail : List (Waveform × Expression)
  dflt : Option Waveform

end Verif.Vhdl
