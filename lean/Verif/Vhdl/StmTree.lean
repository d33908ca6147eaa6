import Verif.Vhdl.Tree
/-!
# VHDL statements, declarations and design units: parse trees (grammars/vhdlParser.g4)

One type per grammar rule, as far as the visitors look at it or as far as the meaning of the source needs it. Identifiers and labels are
their text. Text behind `end` that the visitors do not look at is left out.
-/
namespace Verif.Vhdl

/-- vhdlParser.g4 765-768 (`target`). -/
inductive Target
  | name (n : Name)
  | agg (l : List Elem)

/-- vhdlParser.g4 761-764 (`delay_mechanism`). -/
inductive Delay
  | transport
  | inertial (reject : Option Expression)

/-- vhdlParser.g4 760 (`force_mode`). -/
inductive ForceMode | in_ | out
deriving DecidableEq, Repr

/-- vhdlParser.g4 792-796 (`conditional_expressions`): `expression WHEN condition (ELSE expression WHEN condition)* (ELSE expression)?`. -/
structure CondExprs where
  head : Expression × Expression
  tail : List (Expression × Expression)
  dflt : Option Expression

/-- vhdlParser.g4 741-815 (`signal_assignment_statement`); `q`: the question mark. -/
inductive SigAssign
  | wave (t : Target) (d : Option Delay) (w : Waveform)
  | force (t : Target) (m : Option ForceMode) (e : Expression)
  | release (t : Target) (m : Option ForceMode)
  | cond (t : Target) (d : Option Delay) (c : CondWaves)
  | condForce (t : Target) (m : Option ForceMode) (c : CondExprs)
  | sel (e : Expression) (q : Bool) (t : Target) (d : Option Delay) (l : List (Waveform × List Choice))
  | selForce (e : Expression) (q : Bool) (t : Target) (m : Option ForceMode) (l : List (Expression × List Choice))

/-- vhdlParser.g4 816-830 (`variable_assignment_statement`). -/
inductive VarAssign
  | simple (t : Target) (e : Expression)
  | cond (t : Target) (c : CondExprs)
  | sel (e : Expression) (q : Bool) (t : Target) (l : List (Expression × List Choice))

/-- vhdlParser.g4 855-861 (`iteration_scheme`, `parameter_specification`); `forever`: no iteration scheme. -/
inductive Iter
  | forever
  | while_ (c : Expression)
  | for_ (i : Str) (d : Discr)

mutual
/-- vhdlParser.g4 706-722 (`sequential_statement`). -/
inductive Seq
  | mk (label : Option Str) (s : SeqKind)
/-- vhdlParser.g4 706-722. A clause `on` has at least one name, so the empty list is its absence. `endLabel`: the label behind `end`. -/
inductive SeqKind
  | wait (on : List Name) (until_ for_ : Option Expression)
  | assert_ (c : Expression) (report severity : Option Expression)
  | report (e : Expression) (severity : Option Expression)
  | sig (a : SigAssign)
  | var (a : VarAssign)
  | call (n : Name)
  | if_ (c : Expression) (t : List Seq) (elifs : List ElsIf) (f : SeqElse) (endLabel : Option Str)
  | case_ (q : Bool) (e : Expression) (alts : List CaseAlt) (endLabel : Option Str)
  | loop (it : Iter) (body : List Seq) (endLabel : Option Str)
  | next (label : Option Str) (c : Option Expression)
  | exit (label : Option Str) (c : Option Expression)
  | ret (e : Option Expression)
  | null_
/-- vhdlParser.g4 836-837. -/
inductive ElsIf
  | mk (c : Expression) (l : List Seq)
/-- vhdlParser.g4 838. -/
inductive SeqElse
  | none
  | some (l : List Seq)
/-- vhdlParser.g4 846-849 (`case_statement_alternative`). -/
inductive CaseAlt
  | mk (ch : List Choice) (l : List Seq)
end

/-- The names, the type and the value of a declaration (vhdlParser.g4 343, 415-424, 445-453). -/
structure VarList where
  names : List Str
  type : SubInd
  init : Option Expression

/-- vhdlParser.g4 457 (`signal_mode`). -/
inductive Mode | in_ | out | inout | buffer | linkage
deriving DecidableEq, Repr

/-- vhdlParser.g4 432-485 (`interface_declaration`); `kw`: the keyword `signal`. -/
inductive Intf
  | const (v : VarList) (in_ : Bool)
  | sig (kw : Bool) (v : VarList) (mode : Option Mode) (bus : Bool)
  | var (v : VarList) (mode : Option Mode)
  | file (names : List Str) (t : SubInd)
  | type (name : Str)
  | subprogram (name : Str)
  | package (name : Str)

/-- vhdlParser.g4 301 (`enumeration_literal`). -/
inductive EnumLit
  | ident (t : Str)
  | chr (t : Str)
deriving DecidableEq, Repr

/-- vhdlParser.g4 682 (`physical_literal`). -/
inductive PhysLit
  | name (n : Name)
  | dec (t : Str) (n : Name)
  | based (t : Str) (n : Name)

/-- vhdlParser.g4 286-351, 379-385 (`type_definition`). Integer and floating point types look the same. -/
inductive TypeDef
  | enum (l : List EnumLit)
  | range (r : Range)
  | phys (r : Range) (primary : Str) (units : List (Str × PhysLit))
  | unbounded (l : List Name) (elem : SubInd)
  | constrained (l : List Discr) (elem : SubInd)
  | record (l : List (List Str × SubInd))
  | access (s : SubInd)
  | file (n : Name)
  | protected_

/-- vhdlParser.g4 151-153 (`selected_name`). -/
structure SelName where
  head : Str
  rest : List Suffix

/-- vhdlParser.g4 245-246 (`designator`, `operator_symbol`); the text of an operator symbol includes the quotes. -/
inductive Designator
  | ident (t : Str)
  | opSymbol (t : Str)
deriving DecidableEq, Repr

/-- vhdlParser.g4 227-244 (`subprogram_specification`); `generics`: the generic list of a `subprogram_header`. -/
inductive SubSpec
  | proc (d : Designator) (generics params : List Intf)
  | func (impure : Bool) (d : Designator) (generics params : List Intf) (ret : Name)

/-- vhdlParser.g4 162-166, 182-186, 271-276, 909-930: the rules `entity_declarative_item`, `block_declarative_item`,
`package_declarative_item`, `process_or_package_declarative_item` and `process_declarative_item` in one type: every kind of
declaration is converted in the same way wherever it is allowed. -/
inductive Decl
  | subprogram (s : SubSpec)
  | subInst (name : Str)
  | package (name : Str) (generics : List Intf) (items : List Decl)
  | packageInst (name : Str)
  | typeIncomplete (name : Str)
  | type (name : Str) (t : TypeDef)
  | subtype (name : Str) (s : SubInd)
  | constant (v : VarList)
  | variable (shared : Bool) (v : VarList)
  | signal (v : VarList) (kind : Bool)
  | file (names : List Str) (t : SubInd)
  | alias_ (designator : Str) (t : Option SubInd) (n : Name) (signature : Bool)
  | attrDecl (name : Str)
  | attrSpec (name : Str)
  | use (l : List SelName)
  | groupTemplate (name : Str)
  | group (name : Str)
  | disconnect
  | subBody (s : SubSpec) (decls : List Decl) (stms : List Seq)
  | packageBody (name : Str) (decls : List Decl)
  | component (name : Str) (generics ports : List Intf)
  | configSpec

/-- vhdlParser.g4 908 (`process_sensitivity_list`); `none`: there is none. -/
inductive ProcSens
  | none
  | all
  | names (l : List Name)

/-- vhdlParser.g4 960-964 (`instantiated_unit`). -/
inductive InstUnit
  | component (kw : Bool) (n : Name)
  | entity (n : Name) (arch : Option Str)
  | config (n : Name)

mutual
/-- vhdlParser.g4 880-886 (`concurrent_statement`). The grammar requires the label of blocks, instances and generate statements;
without one the visitor would not find the statement. -/
inductive Conc
  | plain (label : Option Str) (s : ConcKind)
  | block (label : Str) (guard : Option Expression) (generics ports : List Intf) (decls : List Decl) (stms : List Conc)
  | inst (label : Str) (u : InstUnit) (generics ports : Option (List Assoc))
  | forGen (label : Str) (i : Str) (d : Discr) (body : GenBody) (endLabel : Option Str)
  | ifGen (label : Str) (c : GenCond) (elifs : List GenCond) (f : GenElse) (endLabel : Option Str)
  | caseGen (label : Str) (e : Expression) (alts : List GenAlt) (endLabel : Option Str)
/-- vhdlParser.g4 874-879, 931-954 (`concurrent_statement_with_optional_label`). -/
inductive ConcKind
  | process (postponed : Bool) (sens : ProcSens) (decls : List Decl) (stms : List Seq)
  | call (postponed : Bool) (n : Name)
  | assert_ (postponed : Bool) (c : Expression) (report severity : Option Expression)
  | assign (postponed guarded : Bool) (t : Target) (d : Option Delay) (w : Waveform)
  | assignCond (postponed guarded : Bool) (t : Target) (d : Option Delay) (c : CondWaves)
  | assignSel (postponed guarded : Bool) (e : Expression) (q : Bool) (t : Target) (d : Option Delay) (l : List (Waveform × List Choice))
/-- vhdlParser.g4 976-979: an optional label, a condition and a body. -/
inductive GenCond
  | mk (label : Option Str) (c : Expression) (b : GenBody)
/-- vhdlParser.g4 980-981. -/
inductive GenElse
  | none
  | some (label : Option Str) (b : GenBody)
/-- vhdlParser.g4 989-992 (`case_generate_alternative`). -/
inductive GenAlt
  | mk (label : Option Str) (ch : List Choice) (b : GenBody)
/-- vhdlParser.g4 993-1007 (`generate_statement_body`, `generate_statement_body_with_begin_end`); `hasBegin`: the keyword `begin`. -/
inductive GenBody
  | mk (decls : List Decl) (hasBegin : Bool) (stms : List Conc)
end

/-- vhdlParser.g4 1030-1031, 1038-1045 (`context_item`). -/
inductive ContextItem
  | library (names : List Str)
  | use (l : List SelName)
  | contextRef (l : List SelName)

/-- vhdlParser.g4 1015-1029 (`library_unit`), 154-161, 175-181, 263-270, 277-281. -/
inductive LibUnit
  | entity (name : Str) (generics ports : List Intf) (decls : List Decl) (stms : List Conc)
  | config (name : Str)
  | package (name : Str) (generics : List Intf) (items : List Decl)
  | packageInst (name : Str)
  | context (name : Str)
  | arch (name : Str) (entity : Name) (decls : List Decl) (stms : List Conc)
  | packageBody (name : Str) (decls : List Decl)

/-- vhdlParser.g4 1014 (`design_unit`). -/
structure DesignUnit where
  ctx : List ContextItem
  unit : LibUnit

end Verif.Vhdl
