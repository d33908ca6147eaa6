import Verif.ToPyExpr
import Verif.HdlObj
/-!
# Model of the conversion of objects and statements to Python objects (hdlConvertor/toPy.cpp, toPy.h, toPy_statements.cpp, toPy_type.cpp)

Values only, as in `Verif/ToPyExpr.lean`; reference counts are modelled in `Verif/PyRef.lean`. Doc comments, positions and attributes are
not part of `Obj`, so they are left out here, too. Looking up enumerators, creating objects and setting attributes succeeds. An instance
of a Python class is represented by the attributes that the conversion may set. The constructors of the classes (package hdlConvertorAst)
are not part of the repository: attributes that are not set are taken to be `None` (as the comment toPy.cpp 355 says), lists that are
filled are taken to be empty before.
-/
namespace Verif

/-- src/hdlAst/hdlTypes.cpp 8-16. -/
def kindName : ClassKind → Str
  | .CLASS => c! "CLASS" | .STRUCT => c! "STRUCT" | .UNION => c! "UNION" | .INTERFACE => c! "INTERFACE"

/-- The Python values the conversion of objects builds. `cls` is a class itself, `enum` a member of an enumeration class, `inst` an
instance of a class with its attributes. -/
inductive PyO
  | none
  | bool (b : Bool)
  | str (s : Str)
  | long (i : Int)
  | float (text : Str)
  | cls (name : Str)
  | enum (cls name : Str)
  | list (l : List PyO)
  | tuple (a b : PyO)
  | inst (cls : Str) (attrs : List (Str × PyO))

/-- hdlConvertor/toPy.cpp 181-194, 371-377. -/
def pyPos : Option CodePos → PyO
  | none => .inst (c! "CodePosition") [(c! "start_line", .none), (c! "start_column", .none), (c! "stop_line", .none), (c! "stop_column", .none)]
  | some p => .inst (c! "CodePosition") [(c! "start_line", .long p.startLine), (c! "start_column", .long p.startCol),
    (c! "stop_line", .long p.stopLine), (c! "stop_column", .long p.stopCol)]

mutual
/-- The values of `Verif/ToPyExpr.lean`, classes and attributes spelled out. The attributes `val`, `bits`, `base`, `fn`, `ops` stand for the
arguments of the constructors (toPy_expr.cpp 69, 106, toPy.cpp 310). -/
def Py.up : Py → PyO
  | .none => .none
  | .str s => .str s
  | .long i => .long i
  | .float t => .float t
  | .list l => .list (upL l)
  | .tuple a b => .tuple a.up b.up
  | .valueId s => .inst (c! "HdlValueId") [(c! "val", s.up)]
  | .valueInt v b r => .inst (c! "HdlValueInt") [(c! "val", v.up), (c! "bits", b.up), (c! "base", r.up)]
  | .op n l => .inst (c! "HdlOp") [(c! "fn", .enum (c! "HdlOpType") n), (c! "ops", l.up)]
  | .cls n => .cls n
  | .notImpl p => .inst (c! "HdlExprNotImplemented") [(c! "position", pyPos p)]
  | .enumDef v => .inst (c! "HdlEnumDef") [(c! "values", v.up)]
  | .physDef r m => .inst (c! "HdlPhysicalDef") [(c! "range", r.up), (c! "members", m.up)]
  | .classDef k m => .inst (c! "HdlClassDef") [(c! "type", .enum (c! "HdlClassType") (kindName k)), (c! "members", m.up)]
def upL : List Py → List PyO
  | [] => []
  | p :: l => p.up :: upL l
end

/-- src/hdlAst/hdlStmBlock.cpp 22-36. -/
def Join.toStr : Join → Str
  | .SEQ => c! "SEQ" | .PAR_JOIN => c! "PAR_JOIN" | .PAR_JOIN_ANY => c! "PAR_JOIN_ANY" | .PAR_JOIN_NONE => c! "PAR_JOIN_NONE"

/-- src/hdlAst/hdlStmCase.cpp 6-18. -/
def CaseType.toStr : CaseType → Str
  | .CASE => c! "CASE" | .CASEX => c! "CASEX" | .CASEZ => c! "CASEZ"

/-- hdlConvertor/toPy_statements.cpp 63-82, 88-91: `NONE` is not exported. -/
def Uniq.attr : Uniq → PyO
  | .NONE => .none
  | .PRIORITY => .enum (c! "HdlStmCaseUniqConstrain") (c! "PRIORITY")
  | .UNIQUE => .enum (c! "HdlStmCaseUniqConstrain") (c! "UNIQUE")
  | .UNIQUE0 => .enum (c! "HdlStmCaseUniqConstrain") (c! "UNIQUE0")

/-- hdlConvertor/toPy_statements.cpp 235-254, 261-264: `NONE` is not exported. -/
def Trigger.attr : Trigger → PyO
  | .NONE => .none
  | .FF => .enum (c! "HdlStmProcessTriggerConstrain") (c! "FF")
  | .COMB => .enum (c! "HdlStmProcessTriggerConstrain") (c! "COMB")
  | .LATCH => .enum (c! "HdlStmProcessTriggerConstrain") (c! "LATCH")

section
variable (dec : Str → Option Str)

/-- hdlConvertor/toPy.cpp 151-161: the name is only set if it is not empty. -/
def pyName (s : Str) : Except PyErr PyO :=
  match s with
  | [] => .ok .none
  | s => do
    let s ← pyUnicode dec s
    return s.up

/-- hdlConvertor/toPy.h 113-163 for the labels. -/
def pyStrs : List Str → Except PyErr (List PyO)
  | [] => .ok []
  | s :: l => do
    let s ← pyUnicode dec s
    let l ← pyStrs l
    return s.up :: l

/-- hdlConvertor/toPy.h 113-163 for a list of expressions. -/
def pyExprs (l : List Expr) : Except PyErr PyO := do
  let l ← toPyList dec l
  return .list (upL l)

/-- A property that is only set if the pointer is not null (e.g. hdlConvertor/toPy.cpp 348-355, toPy_statements.cpp 170-177). -/
def pyOpt (e : Expr) : Except PyErr PyO :=
  match e with
  | .null => .ok .none
  | e => do
    let e ← toPy dec e
    return e.up

/-- hdlConvertor/toPy.cpp 284-293. -/
def pyDir (d : Dir) : Except PyErr PyO :=
  match d.toString with
  | .ok s => .ok (.enum (c! "HdlDirection") s)
  | .error _ => .error .value

/-- hdlConvertor/toPy.cpp 341-369. -/
def pyIdDef (d : IdDef) : Except PyErr PyO := do
  let n ← pyName dec d.name
  let t ← pyOpt dec d.type
  let v ← pyOpt dec d.value
  let dir ← pyDir d.dir
  return .inst (c! "HdlIdDef") [(c! "name", n), (c! "type", t), (c! "value", v), (c! "is_latched", .bool d.latched), (c! "is_const", .bool d.const),
    (c! "is_static", .bool d.static), (c! "is_shared", .bool d.shared), (c! "is_alias", .bool d.alias_), (c! "direction", dir)]

/-- hdlConvertor/toPy.h 113-163 for definitions. -/
def pyIdDefs : List IdDef → Except PyErr (List PyO)
  | [] => .ok []
  | d :: l => do
    let d ← pyIdDef dec d
    let l ← pyIdDefs l
    return d :: l

/-- hdlConvertor/toPy_statements.cpp 422-437: the attributes of every statement but `HdlStmExpr`. -/
def pyInfo (i : StmInfo) : Except PyErr (List (Str × PyO)) := do
  let l ← pyStrs dec i.labels
  return [(c! "labels", .list l), (c! "in_preproc", .bool i.preproc)]

/-- hdlConvertor/toPy_statements.cpp 178-198: without events the argument is missing. -/
def pyEvents (l : Option (List Expr)) : Except PyErr PyO :=
  match l with
  | none => .ok .none
  | some [] => .ok .none
  | some l => pyExprs dec l

/-- hdlConvertor/toPy_statements.cpp 265-281. -/
def pySens (l : Option (List Expr)) : Except PyErr PyO :=
  match l with
  | none => .ok .none
  | some l => pyExprs dec l

/-- hdlConvertor/toPy_statements.cpp 333-438: a pointer to `iHdlStatement` that is null: `typeid(*o)` throws `std::bad_typeid`; it leaves
the function `ToPy::toPy`, which Cython calls without handling C++ exceptions (_hdlConvertor.pyx 33). -/
def notNull (o : Obj) : Except PyErr Unit :=
  match o with
  | .null => .error .ub
  | _ => .ok ()

mutual
/-- hdlConvertor/toPy.cpp 112-149 (dispatch; the null pointer gives `ValueError`), 101-110, 196-282, 316-339,
hdlConvertor/toPy_statements.cpp 8-62, 83-104, 117-233, 256-438, hdlConvertor/toPy_type.cpp 18-30.
`HdlStmDoWhile` is not among the classes of toPy_statements.cpp 336-415, which gives `TypeError`.
If source, destination or delay of an assignment cannot be converted, toPy_statements.cpp 212-216 release null pointers. -/
def toPyO : Obj → Except PyErr PyO
  | .null => .error .value
  | .id d => pyIdDef dec d
  | .record n ms => do
    let n ← pyName dec n
    let ms ← pyIdDefs dec ms
    return .inst (c! "HdlIdDef") [(c! "name", n), (c! "type", (pySymb .T).up), (c! "value", .inst (c! "HdlClassDef")
      [(c! "type", .enum (c! "HdlClassType") (c! "STRUCT")), (c! "members", .list ms)]), (c! "is_latched", .bool false),
      (c! "is_const", .bool false), (c! "is_static", .bool false), (c! "is_shared", .bool false), (c! "is_alias", .bool false),
      (c! "direction", .enum (c! "HdlDirection") (c! "INTERNAL"))]
  | .fn h body => do
    let n ← pyName dec h.name
    let ps ← pyIdDefs dec h.params
    let r ← pyOpt dec h.ret
    let b ← toPyOs body
    return .inst (c! "HdlFunctionDef") [(c! "name", n), (c! "is_declaration_only", .bool h.declOnly), (c! "is_operator", .bool h.operator),
      (c! "is_static", .bool h.static), (c! "is_task", .bool h.task), (c! "is_virtual", .bool h.virt), (c! "is_impure", .bool h.impure),
      (c! "params", .list ps), (c! "return_t", r), (c! "body", .list b)]
  | .inst n m g p => do
    let n ← toPy dec n
    let m ← toPy dec m
    let g ← pyExprs dec g
    let p ← pyExprs dec p
    return .inst (c! "HdlCompInst") [(c! "name", n.up), (c! "module_name", m.up), (c! "param_map", g), (c! "port_map", p)]
  | .modDec n g p l => do
    let n ← pyName dec n
    let g ← pyIdDefs dec g
    let p ← pyIdDefs dec p
    let l ← toPyOs l
    return .inst (c! "HdlModuleDec") [(c! "name", n), (c! "params", .list g), (c! "ports", .list p), (c! "objs", .list l)]
  | .modDef n m d l => do
    let n ← pyName dec n
    let m ← pyOpt dec m
    let d ← toPyOpt d
    let l ← toPyOs l
    return .inst (c! "HdlModuleDef") [(c! "name", n), (c! "module_name", m), (c! "dec", d), (c! "objs", .list l)]
  | .assign i d s dl ev b => do
    let s ← ubFail (toPy dec s)
    let d ← ubFail (toPy dec d)
    let dl ← ubFail (pyOpt dec dl)
    let ev ← pyEvents dec ev
    let i ← pyInfo dec i
    return .inst (c! "HdlStmAssign") ([(c! "src", s.up), (c! "dst", d.up), (c! "time_delay", dl), (c! "event_delay", ev),
      (c! "is_blocking", .bool b)] ++ i)
  | .block i j l => do
    let l ← toPyOs l
    let i ← pyInfo dec i
    return .inst (c! "HdlStmBlock") ([(c! "join_t", .enum (c! "HdlStmBlockJoinType") j.toStr), (c! "body", .list l)] ++ i)
  | .case i u t s cs d => do
    let s ← toPy dec s
    let cs ← toPyBs cs
    let d ← toPyOpt d
    let i ← pyInfo dec i
    return .inst (c! "HdlStmCase") ([(c! "uniq_constrain", u.attr), (c! "type", .enum (c! "HdlStmCaseType") t.toStr), (c! "switch_on", s.up),
      (c! "cases", .list cs), (c! "default", d)] ++ i)
  | .expr _ e => do
    let e ← toPy dec e
    return e.up
  | .for_ i a c s b => do
    notNull a
    let a ← toPyO a
    let c ← toPy dec c
    notNull s
    let s ← toPyO s
    let b ← toPyO b
    let i ← pyInfo dec i
    return .inst (c! "HdlStmFor") ([(c! "init", a), (c! "cond", c.up), (c! "step", s), (c! "body", b)] ++ i)
  | .forIn i vs c b => do
    let vs ← toPyOs vs
    let c ← toPy dec c
    let b ← toPyO b
    let i ← pyInfo dec i
    return .inst (c! "HdlStmForIn") ([(c! "var_defs", .list vs), (c! "collection", c.up), (c! "body", b)] ++ i)
  | .repeat_ i n b => do
    let n ← toPy dec n
    let b ← toPyO b
    let i ← pyInfo dec i
    return .inst (c! "HdlStmRepeat") ([(c! "n", n.up), (c! "body", b)] ++ i)
  | .while_ i c b => do
    let c ← toPy dec c
    notNull b
    let b ← toPyO b
    let i ← pyInfo dec i
    return .inst (c! "HdlStmWhile") ([(c! "cond", c.up), (c! "body", b)] ++ i)
  | .doWhile _ _ _ => .error .type
  | .if_ i c t el f => do
    let c ← toPy dec c
    let t ← toPyO t
    let el ← toPyBs el
    let f ← toPyOpt f
    let i ← pyInfo dec i
    return .inst (c! "HdlStmIf") ([(c! "cond", c.up), (c! "if_true", t), (c! "elifs", .list el), (c! "if_false", f)] ++ i)
  | .process i t s b => do
    let s ← pySens dec s
    notNull b
    let b ← toPyO b
    let i ← pyInfo dec i
    return .inst (c! "HdlStmProcess") ([(c! "trigger_constrain", t.attr), (c! "sensitivity", s), (c! "body", b)] ++ i)
  | .break_ i => do
    let i ← pyInfo dec i
    return .inst (c! "HdlStmBreak") i
  | .continue_ i => do
    let i ← pyInfo dec i
    return .inst (c! "HdlStmContinue") i
  | .nop i => do
    let i ← pyInfo dec i
    return .inst (c! "HdlStmNop") i
  | .import_ i l => do
    let l ← pyExprs dec l
    let i ← pyInfo dec i
    return .inst (c! "HdlImport") ([(c! "path", l)] ++ i)
  | .return_ i v => do
    let v ← pyOpt dec v
    let i ← pyInfo dec i
    return .inst (c! "HdlStmReturn") ([(c! "val", v)] ++ i)
  | .wait i l => do
    let l ← pyExprs dec l
    let i ← pyInfo dec i
    return .inst (c! "HdlStmWait") ([(c! "val", l)] ++ i)
  | .idspace n d l => do
    let n ← pyName dec n
    let l ← toPyOs l
    return .inst (c! "HdlValueIdspace") [(c! "name", n), (c! "objs", .list l), (c! "declaration_only", .bool d)]
  | .library n => do
    let n ← pyName dec n
    return .inst (c! "HdlLibrary") [(c! "name", n)]
/-- hdlConvertor/toPy.h 113-163. -/
def toPyOs : List Obj → Except PyErr (List PyO)
  | [] => .ok []
  | o :: l => do
    let o ← toPyO o
    let l ← toPyOs l
    return o :: l
/-- A property that is only set if the pointer is not null (e.g. toPy_statements.cpp 23-26). -/
def toPyOpt : Obj → Except PyErr PyO
  | .null => .ok .none
  | o => toPyO o
/-- hdlConvertor/toPy.h 113-163 with toPy_statements.cpp 440-470. -/
def toPyBs : List Branch → Except PyErr (List PyO)
  | [] => .ok []
  | .mk e o :: l => do
    let e ← toPy dec e
    let o ← toPyO o
    let l ← toPyBs l
    return .tuple e.up o :: l
end

/-- hdlConvertor/toPy.cpp 91-99: the context. -/
def toPyContext (l : List Obj) : Except PyErr PyO := do
  let l ← toPyOs dec l
  return .inst (c! "HdlContext") [(c! "objs", .list l)]
end

end Verif
