import Verif.ToPyObj
/-!
# Model of the reference counts in the conversion to Python (hdlConvertor/toPy.h, toPy.cpp, toPy_expr.cpp, toPy_type.cpp, toPy_statements.cpp)

The conversion is modelled as a program that creates references, stores them in Python objects and gives them up. The state has a log of
all changes of the number of references the C++ code owns. `net s r` is their sum for the Python object `r`: the reference count of `r`
minus the number of references to `r` stored in Python objects. The object `r` stays alive for ever if `net s r` stays positive; it is
freed although it is still used if `net s r` is negative. The API behaves as documented:
creating objects, `PyObject_GetAttrString`, `PyUnicode_FromString` give a new reference (+1), `PyList_Append`, `PyObject_SetAttrString`,
`PyObject_CallFunctionObjArgs` and `PyTuple_Pack` do not take one over (0), `PyList_SetItem` and `PyTuple_SetItem` do (-1).
`Py_DECREF` of the null pointer is undefined behaviour. As in `Verif/ToPyObj.lean`, creating objects, setting attributes
and looking up enumerators succeed, and the attributes that are filled are lists (not `None`) before. Small numbers are new objects here,
although Python shares them. Positions are those of objects made without one. Attributes of objects and doc comments are left out.
-/
namespace Verif.PyRef
open Verif

/-- A Python object: `None`, an object that lives anyway (a class, an enumerator, `True`, `False`), an object made during the conversion,
or the value of an attribute that the constructor of an object has made. -/
inductive Ref
  | none
  | glob (cls name : Str)
  | obj (n : Nat)
  | attr (r : Ref) (prop : Str)
deriving DecidableEq

/-- Number of the next new object; changes of the numbers of owned references, the last one first. -/
structure St where
  next : Nat
  log : List (Ref × Int)

/-- The number of references to `t` owned by the C++ code. -/
def netL (t : Ref) : List (Ref × Int) → Int
  | [] => 0
  | (r, d) :: l => (if r = t then d else 0) + netL t l

def net (s : St) (t : Ref) : Int := netL t s.log

/-- A function that returns a new reference, or the null pointer with a Python exception set. -/
def M (α : Type) := St → St × Except PyErr α

def M.bind {α β : Type} (x : M α) (f : α → M β) : M β := fun s =>
  match x s with
  | (s, .ok a) => f a s
  | (s, .error e) => (s, .error e)

instance : Monad M where
  pure a := fun s => (s, .ok a)
  bind := M.bind

/-- `PyErr_SetString` and the null pointer as result; `ub` is undefined behaviour. -/
def fail {α : Type} (e : PyErr) : M α := fun s => (s, .error e)

/-- `if (!x) { c; return nullptr; }` -/
def onFail {α : Type} (x : M α) (c : M Unit) : M α := fun s =>
  match x s with
  | (s, .ok a) => (s, .ok a)
  | (s, .error .ub) => (s, .error .ub)
  | (s, .error e) =>
    match c s with
    | (s, .ok _) => (s, .error e)
    | (s, .error e) => (s, .error e)

def change (r : Ref) (d : Int) : M Unit := fun s => ({ s with log := (r, d) :: s.log }, .ok ())

/-- `Py_INCREF` of an object. -/
def incref (r : Ref) : M Unit := change r 1

/-- `Py_DECREF` of an object. -/
def decref (r : Ref) : M Unit := change r (-1)

/-- The reference is handed over to a list or tuple (`PyList_SetItem`, `PyTuple_SetItem`). -/
def handOver (r : Ref) : M Unit := change r (-1)

/-- `PyObject_CallObject(Cls, NULL)`, `PyObject_CallFunctionObjArgs`, `PyList_New`, `PyTuple_New`, `PyTuple_Pack`, `PyLong_FromLong`,
`PyFloat_FromDouble`: a new object. -/
def new : M Ref := fun s => ({ next := s.next + 1, log := (.obj s.next, 1) :: s.log }, .ok (.obj s.next))

/-- `Py_INCREF(Py_None)` and use as value, `Py_RETURN_NONE`. -/
def noneR : M Ref := do
  incref .none
  return .none

/-- `PyObject_GetAttrString(Enum, name)`, `PyBool_FromLong`, `Py_INCREF(Cls)`. -/
def globR (cls name : Str) : M Ref := do
  incref (.glob cls name)
  return .glob cls name

/-- `PyObject_GetAttrString(parent, prop)` in toPy.h 116. -/
def getAttr (r : Ref) (prop : Str) : M Ref := do
  incref (.attr r prop)
  return .attr r prop

/-- toPy.cpp 379-381. -/
def boolR (b : Bool) : M Ref := globR (c! "bool") (if b then c! "True" else c! "False")

/-- toPy.h 147-162: one turn of the loop. -/
def appendR (list : Ref) (x : M Ref) : M Unit := do
  let r ← onFail x (decref list)
  decref r

/-- toPy.h 113-144. -/
def arrR (parent : Ref) (prop : Str) (fill : Ref → M Unit) : M Unit := do
  let l ← getAttr parent prop
  onFail (fill l) (decref l)

/-- toPy.h 164-192. -/
def propR (inst : Ref) (x : M Ref) : M Unit := do
  let r ← onFail x (decref inst)
  decref r

/-- toPy_expr.cpp 128-137, toPy_statements.cpp 446-468: an item of a list or tuple. -/
def setItemR (list : Ref) (x : M Ref) : M Unit := do
  let r ← onFail x (decref list)
  handOver r

/-- `PyObject_CallObject(Cls, NULL)` and the attributes; `PyList_New` or `PyTuple_New` and the items. -/
def instR (f : Ref → M Unit) : M Ref := do
  let i ← new
  f i
  return i

/-- toPy.cpp 371-377, 181-194. -/
def numR : Option Nat → M Ref
  | none => noneR
  | some _ => new

/-- toPy.cpp 181-194. -/
def posR (p : Option CodePos) : M Ref := instR fun i => do
  propR i (numR (p.map (·.startLine)))
  propR i (numR (p.map (·.startCol)))
  propR i (numR (p.map (·.stopLine)))
  propR i (numR (p.map (·.stopCol)))

/-- toPy_expr.cpp 143-168. -/
def symbR : Symb → M Ref
  | .OPEN => noneR
  | .ALL => globR (c! "cls") (c! "HdlAll")
  | .NULL => noneR
  | .T => globR (c! "cls") (c! "HdlTypeType")
  | .T_AUTO => globR (c! "cls") (c! "HdlTypeAuto")
  | .T_SUBTYPE => globR (c! "cls") (c! "HdlTypeSubtype")
  | .OTHERS => globR (c! "cls") (c! "HdlOthers")

section
variable (dec : Str → Option Str)

/-- toPy.cpp 383-385, `PyUnicode_FromString`. -/
def strR (s : Str) : M Ref :=
  match dec (s.takeWhile (· ≠ '\x00')) with
  | some _ => new
  | none => fail .unicode

/-- toPy_expr.cpp 74-111. -/
def intR (v : IntVal) : M Ref := do
  let isBits := v.int.base ≠ -1
  let val ← (if isBits then strR dec v.int.bitstring else new)
  let base ← (if isBits then new else noneR)
  let bits ← (if v.bits > 0 then new else noneR)
  let res ← new
  decref val
  decref bits
  decref base
  return res

/-- toPy_type.cpp 65-73. -/
def pairNameR : Option Str → M Ref
  | some n => strR dec n
  | none => noneR

/-- toPy_type.cpp 77-78, toPy_statements.cpp 212-216: `Py_DECREF` of the null pointer that the conversion returned. -/
def nullFail {α : Type} (x : M α) : M α := onFail x (fail .ub)

mutual
/-- toPy_expr.cpp 19-62 (dispatch), 64-72, 113-141, 170-177, toPy.cpp 295-315, toPy_type.cpp 18-50. -/
def exprR : Expr → M Ref
  | .null => fail .value
  | .id _ s => do
    let v ← strR dec s
    let res ← new
    decref v
    return res
  | .int _ v => intR dec v
  | .float _ _ => new
  | .str _ s => strR dec s
  | .symb _ k => symbR k
  | .arr _ l => instR fun val => fillR val l
  | .op _ o l =>
    match o.toString with
    | .error _ => fail .value
    | .ok n => do
      let fn ← globR (c! "HdlOpType") n
      let ops ← new
      onFail (appendsR ops l) (decref fn)
      let res ← new
      decref fn
      decref ops
      return res
  | .notImpl p => instR fun i => propR i (posR p)
  | .enumDef _ _ _ ns vs => instR fun i => arrR i (c! "values") fun l => pairsR l ns vs
  | .physDef _ _ r ns vs => instR fun i => do
    propR i (exprR r)
    arrR i (c! "members") fun l => pairsR l (ns.map some) vs
  | .classDef _ _ _ k ms _ _ => instR fun i => do
    propR i (globR (c! "HdlClassType") (kindName k))
    arrR i (c! "members") fun l => appendsR l ms
/-- toPy.h 147-162 for expressions. -/
def appendsR (list : Ref) : List Expr → M Unit
  | [] => pure ()
  | e :: l => do
    appendR list (exprR e)
    appendsR list l
/-- toPy_expr.cpp 126-139. -/
def fillR (list : Ref) : List Expr → M Unit
  | [] => pure ()
  | e :: l => do
    setItemR list (exprR e)
    fillR list l
/-- toPy.h 147-162 with toPy_type.cpp 52-87. -/
def pairsR (list : Ref) : List (Option Str) → List Expr → M Unit
  | n :: ns, e :: l => do
    appendR list (do
      let _ ← pairNameR dec n
      let _ ← (match e with
        | .null => noneR
        | e => nullFail (exprR e))
      new)
    pairsR list ns l
  | _, _ => pure ()
end

/-- A property that is only set if the pointer is not null (e.g. toPy.cpp 348-355). -/
def propOptE (i : Ref) : Expr → M Unit
  | .null => pure ()
  | e => propR i (exprR dec e)

/-- toPy.cpp 151-179: name and position. -/
def nameR (i : Ref) (s : Str) : M Unit := do
  match s with
  | [] => pure ()
  | s => propR i (strR dec s)
  propR i (posR none)

/-- toPy.cpp 284-293. -/
def dirR (d : Dir) : M Ref :=
  match d.toString with
  | .ok s => globR (c! "HdlDirection") s
  | .error _ => fail .value

/-- toPy.cpp 356-367. -/
def flagsR (i : Ref) (latched const static shared alias_ : Bool) (d : Dir) : M Unit := do
  propR i (boolR latched)
  propR i (boolR const)
  propR i (boolR static)
  propR i (boolR shared)
  propR i (boolR alias_)
  propR i (dirR d)

/-- toPy.cpp 341-369. -/
def idDefR (d : IdDef) : M Ref := instR fun i => do
  nameR dec i d.name
  propOptE dec i d.type
  propOptE dec i d.value
  flagsR i d.latched d.const d.static d.shared d.alias_ d.dir

/-- toPy.h 147-162 for definitions. -/
def idDefsR (list : Ref) : List IdDef → M Unit
  | [] => pure ()
  | d :: l => do
    appendR list (idDefR dec d)
    idDefsR list l

/-- toPy.h 147-162 for labels. -/
def strsR (list : Ref) : List Str → M Unit
  | [] => pure ()
  | s :: l => do
    appendR list (strR dec s)
    strsR list l

/-- toPy_statements.cpp 422-437. -/
def infoR (i : Ref) (f : StmInfo) : M Unit := do
  arrR i (c! "labels") fun l => strsR dec l f.labels
  propR i (boolR f.preproc)
  propR i (posR none)

/-- toPy_statements.cpp 178-195, 212-218: the argument with the events; if an event cannot be converted, everything is released. -/
def eventsR (src dst delay : Ref) : Option (List Expr) → M (Option Ref)
  | none => pure none
  | some [] => pure none
  | some l => do
    let ev ← new
    onFail (fillR dec ev l) (do
      decref src
      decref dst
      decref delay)
    return some ev

/-- `Py_XDECREF` in toPy_statements.cpp 205; the null pointer is left out. -/
def xdecref : Option Ref → M Unit
  | none => pure ()
  | some r => decref r

/-- toPy_statements.cpp 170-177, 212-216. -/
def delayR : Expr → M Ref
  | .null => noneR
  | dl => nullFail (exprR dec dl)

/-- toPy_statements.cpp 197-209. -/
def assignEnd (src dst delay : Ref) (ev : Option Ref) (b : Bool) : M Ref := do
  let i ← new
  decref src
  decref dst
  decref delay
  xdecref ev
  let bl ← boolR b
  decref bl
  return i

/-- toPy_statements.cpp 158-221. `fillR` releases the list if an event cannot be converted, as line 216 does. -/
def assignR (d s dl : Expr) (ev : Option (List Expr)) (b : Bool) : M Ref := do
  let src ← nullFail (exprR dec s)
  let dst ← nullFail (exprR dec d)
  let delay ← delayR dec dl
  let ev ← eventsR dec src dst delay ev
  assignEnd src dst delay ev b

/-- toPy_statements.cpp 265-281: the list is released before it is filled. -/
def sensR (i : Ref) : Option (List Expr) → M Unit
  | none => pure ()
  | some l => do
    let sl ← new
    decref sl
    onFail (appendsR dec sl l) (decref i)

/-- toPy_statements.cpp 287-300. -/
def importR (l : List Expr) : M Ref := do
  let p ← new
  appendsR dec p l
  let i ← new
  decref p
  return i

/-- An enumerator that is only set if it is not `NONE` (toPy_statements.cpp 88-91, 261-264). -/
def enumR (i : Ref) : PyO → M Unit
  | .enum c n => propR i (globR c n)
  | _ => pure ()

/-- toPy_statements.cpp 333-438 for null pointers, see `notNull` in `Verif/ToPyObj.lean`. -/
def notNullR : Obj → M Unit
  | .null => fail .ub
  | _ => pure ()

/-- toPy.cpp 270-273: an empty vector of parameters may be a null pointer. -/
def paramsR (ptr : FnHead → Bool) (i : Ref) (h : FnHead) : M Unit :=
  match h.params, ptr h with
  | [], false => pure ()
  | ps, _ => arrR i (c! "params") fun l => idDefsR dec l ps

variable (ptr : FnHead → Bool)

mutual
/-- toPy.cpp 101-149, 196-282, 316-339, toPy_statements.cpp 8-62, 83-104, 117-233, 256-438, toPy_type.cpp 18-30. -/
def objR : Obj → M Ref
  | .null => fail .value
  | .id d => idDefR dec d
  | .record n ms => instR fun i => do
    nameR dec i n
    propR i (symbR .T)
    propR i (instR fun j => do
      propR j (globR (c! "HdlClassType") (c! "STRUCT"))
      arrR j (c! "members") fun l => idDefsR dec l ms)
    flagsR i false false false false false .INTERNAL
  | .fn h body => instR fun i => do
    nameR dec i h.name
    propR i (boolR h.declOnly)
    propR i (boolR h.operator)
    propR i (boolR h.static)
    propR i (boolR h.task)
    propR i (boolR h.virt)
    propR i (boolR h.impure)
    paramsR dec ptr i h
    propOptE dec i h.ret
    arrR i (c! "body") fun l => objsR l body
  | .inst n m g p => instR fun i => do
    propR i (exprR dec n)
    propR i (exprR dec m)
    arrR i (c! "param_map") fun l => appendsR dec l g
    arrR i (c! "port_map") fun l => appendsR dec l p
  | .modDec n g p os => instR fun i => do
    nameR dec i n
    arrR i (c! "params") fun l => idDefsR dec l g
    arrR i (c! "ports") fun l => idDefsR dec l p
    arrR i (c! "objs") fun l => objsR l os
  | .modDef n m d os => instR fun i => do
    nameR dec i n
    propOptE dec i m
    propOptO i d
    arrR i (c! "objs") fun l => objsR l os
  | .assign f d s dl ev b => do
    let i ← assignR dec d s dl ev b
    infoR dec i f
    return i
  | .block f j os => instR fun i => do
    propR i (globR (c! "HdlStmBlockJoinType") j.toStr)
    arrR i (c! "body") fun l => objsR l os
    infoR dec i f
  | .case f u t s cs d => instR fun i => do
    enumR i u.attr
    propR i (globR (c! "HdlStmCaseType") t.toStr)
    propR i (exprR dec s)
    arrR i (c! "cases") fun l => branchesR l cs
    propOptO i d
    infoR dec i f
  | .expr _ e => exprR dec e
  | .for_ f a c s b => instR fun i => do
    notNullR a
    propR i (objR a)
    propR i (exprR dec c)
    notNullR s
    propR i (objR s)
    propR i (objR b)
    infoR dec i f
  | .forIn f vs c b => instR fun i => do
    arrR i (c! "var_defs") fun l => objsR l vs
    propR i (exprR dec c)
    propR i (objR b)
    infoR dec i f
  | .repeat_ f n b => instR fun i => do
    propR i (exprR dec n)
    propR i (objR b)
    infoR dec i f
  | .while_ f c b => instR fun i => do
    propR i (exprR dec c)
    notNullR b
    propR i (objR b)
    infoR dec i f
  | .doWhile _ _ _ => fail .type
  | .if_ f c t el e => instR fun i => do
    propR i (exprR dec c)
    propR i (objR t)
    arrR i (c! "elifs") fun l => branchesR l el
    propOptO i e
    infoR dec i f
  | .process f t s b => instR fun i => do
    enumR i t.attr
    sensR dec i s
    notNullR b
    propR i (objR b)
    infoR dec i f
  | .break_ f => instR fun i => infoR dec i f
  | .continue_ f => instR fun i => infoR dec i f
  | .nop f => instR fun i => infoR dec i f
  | .import_ f l => do
    let i ← importR dec l
    infoR dec i f
    return i
  | .return_ f v => instR fun i => do
    propOptE dec i v
    infoR dec i f
  | .wait f es => instR fun i => do
    arrR i (c! "val") fun l => appendsR dec l es
    infoR dec i f
  | .idspace n d os => instR fun i => do
    nameR dec i n
    arrR i (c! "objs") fun l => objsR l os
    propR i (boolR d)
  | .library n => do
    let _ ← noneR
    instR fun i => nameR dec i n
/-- toPy.h 147-162 for objects. -/
def objsR (list : Ref) : List Obj → M Unit
  | [] => pure ()
  | o :: l => do
    appendR list (objR o)
    objsR list l
/-- A property that is only set if the pointer is not null (e.g. toPy_statements.cpp 23-26). -/
def propOptO (i : Ref) : Obj → M Unit
  | .null => pure ()
  | o => propR i (objR o)
/-- toPy.h 147-162 with toPy_statements.cpp 440-470. -/
def branchesR (list : Ref) : List Branch → M Unit
  | [] => pure ()
  | .mk e o :: l => do
    appendR list (instR fun t => do
      setItemR t (exprR dec e)
      setItemR t (objR o))
    branchesR list l
end

/-- toPy.cpp 91-99: the context. -/
def contextR (os : List Obj) : M Ref := instR fun i => arrR i (c! "objs") fun l => objsR dec ptr l os

end

end Verif.PyRef
