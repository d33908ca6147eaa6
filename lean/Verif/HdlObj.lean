import Verif.HdlAst
/-!
# Model of the object part of the AST (include/hdlConvertor/hdlAst, src/hdlAst): definitions, statements, modules

A `std::unique_ptr<iHdlObj>` (or to a derived class) is an `Obj`; the null pointer is `Obj.null`. Left out: positions, doc comments
and attributes of objects. `HdlStmBlock` inside other objects is just an `Obj`.
-/
namespace Verif

/-- include/hdlConvertor/hdlAst/hdlDirection.h 6-14. -/
inductive Dir
  | IN | OUT | INOUT | BUFFER | LINKAGE | INTERNAL | UNKNOWN
deriving DecidableEq, Repr

/-- hdlDirection.h 16-33 (`HdlDirection_toString`), used by hdlConvertor/toPy.cpp 284-293: the exception becomes a Python `ValueError`. -/
def Dir.toString : Dir → Except Exc Str
  | .IN => .ok (c! "IN") | .OUT => .ok (c! "OUT") | .INOUT => .ok (c! "INOUT") | .BUFFER => .ok (c! "BUFFER")
  | .LINKAGE => .ok (c! "LINKAGE") | .INTERNAL => .ok (c! "INTERNAL")
  | .UNKNOWN => .error (.runtime (c! "Invalid direction value"))

/-- include/hdlConvertor/hdlAst/hdlIdDef.h 19-37; the defaults are those of src/hdlAst/hdlIdDef.cpp 8-13. -/
structure IdDef where
  name : Str
  type : Expr
  value : Expr
  latched : Bool := false
  const : Bool := false
  static : Bool := false
  shared : Bool := false
  alias_ : Bool := false
  dir : Dir := .INTERNAL

/-- hdlStmBlock.h 10-15 (`HdlStmBlockJoinType`). -/
inductive Join
  | SEQ | PAR_JOIN | PAR_JOIN_ANY | PAR_JOIN_NONE
deriving DecidableEq, Repr

/-- hdlStmCase.h 9-11 (`HdlStmCaseType`). -/
inductive CaseType
  | CASE | CASEZ | CASEX
deriving DecidableEq, Repr

/-- hdlStmCase.h 13-15 (`HdlStmCaseUniqConstrain`). -/
inductive Uniq
  | NONE | UNIQUE | UNIQUE0 | PRIORITY
deriving DecidableEq, Repr

/-- hdlStmProcess.h 9-11 (`HdlStmProcessTriggerConstrain`). -/
inductive Trigger
  | NONE | COMB | FF | LATCH
deriving DecidableEq, Repr

/-- iHdlStatement.h 18-28: labels and `in_preproc` (false in the constructor, src/hdlAst/iHdlStatement.cpp 14-17). -/
structure StmInfo where
  labels : List Str := []
  preproc : Bool := false
deriving DecidableEq, Repr

/-- hdlFunctionDef.h 15-31 without the body; the defaults are those of src/hdlAst/hdlFunctionDef.cpp 9-11. `params` is a pointer to a
vector. The constructor means to replace a null pointer by an empty vector, but lines 12-15 assign to the parameter of the constructor,
not to the member, so the member stays null. A null member is `[]` here: the conversion to Python skips it (hdlConvertor/toPy.cpp
270-273). -/
structure FnHead where
  name : Str
  ret : Expr
  params : List IdDef
  operator : Bool := false
  static : Bool := false
  virt : Bool := false
  task : Bool := false
  declOnly : Bool := true
  impure : Bool := false

mutual
/-- `iHdlObj` and the derived classes that occur as objects of contexts, modules, blocks and functions.
hdlStmAssign.h 14-30, hdlStmBlock.h 20-30, hdlStmCase.h 22-42, hdlStmExpr.h 13-17, hdlStmFor.h 13-64, hdlStmIf.h 12-29,
hdlStmProcess.h 21-35, hdlStmWhile.h 12-33, hdlStm_others.h 9-45, hdlCompInst.h 12-22, hdlModuleDec.h 15-25, hdlModuleDef.h 13-21,
hdlNamespace.h 14-21 (`idspace`), hdlLibrary.h 14-18. `record name members` is the `HdlIdDef` of a VHDL record type: its type is the symbol
`type`, its value an `HdlClassDef` of kind `STRUCT` with these members (the members of a class are objects, so they are not part of `Expr`).
`sens`/`event`: `none` is the null pointer. -/
inductive Obj
  | null
  | id (d : IdDef)
  | fn (h : FnHead) (body : List Obj)
  | inst (name module_ : Expr) (generics ports : List Expr)
  | modDec (name : Str) (generics ports : List IdDef) (objs : List Obj)
  | modDef (name : Str) (moduleName : Expr) (dec : Obj) (objs : List Obj)
  | assign (i : StmInfo) (dst src delay : Expr) (event : Option (List Expr)) (blocking : Bool)
  | block (i : StmInfo) (join : Join) (l : List Obj)
  | case (i : StmInfo) (uniq : Uniq) (type : CaseType) (sel : Expr) (cases : List Branch) (dflt : Obj)
  | expr (i : StmInfo) (e : Expr)
  | for_ (i : StmInfo) (init : Obj) (cond : Expr) (step body : Obj)
  | forIn (i : StmInfo) (vars : List Obj) (coll : Expr) (body : Obj)
  | repeat_ (i : StmInfo) (n : Expr) (body : Obj)
  | while_ (i : StmInfo) (cond : Expr) (body : Obj)
  | doWhile (i : StmInfo) (body : Obj) (cond : Expr)
  | if_ (i : StmInfo) (cond : Expr) (t : Obj) (elifs : List Branch) (f : Obj)
  | process (i : StmInfo) (trigger : Trigger) (sens : Option (List Expr)) (body : Obj)
  | break_ (i : StmInfo)
  | continue_ (i : StmInfo)
  | nop (i : StmInfo)
  | import_ (i : StmInfo) (path : List Expr)
  | return_ (i : StmInfo) (v : Expr)
  | wait (i : StmInfo) (l : List Expr)
  | idspace (name : Str) (defsOnly : Bool) (objs : List Obj)
  | library (name : Str)
  | record (name : Str) (members : List IdDef)
/-- `HdlExprAndiHdlObj` (iHdlStatement.h 30-38). -/
inductive Branch
  | mk (e : Expr) (o : Obj)
end

/-- `dynamic_cast<iHdlStatement*>` and the labels and flags of the statement. -/
def Obj.info? : Obj → Option StmInfo
  | .assign i .. | .block i .. | .case i .. | .expr i .. | .for_ i .. | .forIn i .. | .repeat_ i .. | .while_ i .. | .doWhile i .. | .if_ i ..
  | .process i .. | .break_ i | .continue_ i | .nop i | .import_ i .. | .return_ i .. | .wait i .. => some i
  | .null | .id .. | .fn .. | .inst .. | .modDec .. | .modDef .. | .idspace .. | .library .. | .record .. => none

/-- Change labels and flags of a statement. -/
def Obj.mapInfo (f : StmInfo → StmInfo) : Obj → Obj
  | .assign i d s dl ev b => .assign (f i) d s dl ev b
  | .block i j l => .block (f i) j l
  | .case i u t s c d => .case (f i) u t s c d
  | .expr i e => .expr (f i) e
  | .for_ i a b c d => .for_ (f i) a b c d
  | .forIn i a b c => .forIn (f i) a b c
  | .repeat_ i a b => .repeat_ (f i) a b
  | .while_ i a b => .while_ (f i) a b
  | .doWhile i a b => .doWhile (f i) a b
  | .if_ i c t e el => .if_ (f i) c t e el
  | .process i t s b => .process (f i) t s b
  | .break_ i => .break_ (f i)
  | .continue_ i => .continue_ (f i)
  | .nop i => .nop (f i)
  | .import_ i p => .import_ (f i) p
  | .return_ i v => .return_ (f i) v
  | .wait i l => .wait (f i) l
  | o => o

/-- `dynamic_cast<HdlIdDef*>`; `HdlFunctionDef` is derived from `HdlIdDef` (hdlFunctionDef.h 15), its `type` and `value` are null
(src/hdlAst/hdlFunctionDef.cpp 9). -/
def Obj.idDef? : Obj → Option IdDef
  | .id d => some d
  | .fn h _ => some { name := h.name, type := .null, value := .null }
  | .record n _ => some { name := n, type := .symb none .T, value := .classDef none [] [] .STRUCT [] false false }
  | _ => none

/-- src/hdlAst/hdlStmAssign.cpp 15-26: throws if source or destination is null. -/
def mkAssign (dst src delay : Expr) (event : Option (List Expr)) (blocking : Bool) : Except Exc Obj :=
  match dst, src with
  | .null, _ => .error (.runtime (c! "wrong assign initialization"))
  | _, .null => .error (.runtime (c! "wrong assign initialization"))
  | dst, src => .ok (.assign {} dst src delay event blocking)

end Verif
