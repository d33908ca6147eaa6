import Verif.HdlAst
/-!
# Model of the conversion of expressions to Python objects (hdlConvertor/toPy_expr.cpp, toPy_type.cpp, parts of toPy.cpp)

Values only: reference counts are modelled in `Verif/PyRef.lean`. The decoding of `char*` to `str` (`PyUnicode_FromString`: UTF-8, up
to the first NUL) is an arbitrary partial function `dec` applied to the text before the first NUL; the API calls that only
fail when memory is exhausted are taken to succeed, and so is the look-up of the enumerators by name.
-/
namespace Verif

/-- The Python values the conversion builds (classes of the package hdlConvertorAst). -/
inductive Py
  | none
  | str (s : Str)
  | long (i : Int)
  | float (text : Str)
  | list (l : List Py)
  | tuple (a b : Py)
  | valueId (s : Py)
  | valueInt (v bits base : Py)
  | op (name : Str) (ops : Py)
  | cls (name : Str)
  | notImpl (pos : Option CodePos)
  | enumDef (values : Py)
  | physDef (range members : Py)
  | classDef (kind : ClassKind) (members : Py)

/-- Why a conversion fails: `ValueError`, `UnicodeDecodeError`, `AssertionError`, `TypeError`; `ub`: undefined behaviour. -/
inductive PyErr
  | value | unicode | assertion | type | ub
deriving DecidableEq, Repr

/-- toPy_type.cpp 76-80, toPy_statements.cpp 212-216: if the conversion fails, `Py_DECREF` is applied to the null pointer. -/
def ubFail {α : Type} : Except PyErr α → Except PyErr α
  | .ok a => .ok a
  | .error _ => .error .ub

section
variable (dec : Str → Option Str)

/-- `PyUnicode_FromString(s.c_str())`, used in toPy_expr.cpp 66, 78, 118, toPy.cpp 383-385. -/
def pyUnicode (s : Str) : Except PyErr Py :=
  match dec (s.takeWhile (· ≠ '\x00')) with
  | some t => .ok (.str t)
  | none => .error .unicode

/-- toPy_expr.cpp 74-111. `is_bitstring` is bigInteger.cpp 14-16. -/
def pyInt (v : IntVal) : Except PyErr Py := do
  let isBits := v.int.base ≠ -1
  let p ← (if isBits then pyUnicode dec v.int.bitstring else .ok (.long v.int.val))
  let base := if isBits then .long v.int.base else .none
  let bits := if v.bits > 0 then .long v.bits else .none
  return .valueInt p bits base

/-- toPy_expr.cpp 143-168. -/
def pySymb : Symb → Py
  | .OPEN => .none
  | .ALL => .cls (c! "HdlAll")
  | .NULL => .none
  | .T => .cls (c! "HdlTypeType")
  | .T_AUTO => .cls (c! "HdlTypeAuto")
  | .T_SUBTYPE => .cls (c! "HdlTypeSubtype")
  | .OTHERS => .cls (c! "HdlOthers")

mutual
/-- toPy_expr.cpp 19-62 (dispatch), 64-72, 113-141, 170-177, toPy.cpp 295-315, toPy_type.cpp 18-50. Positions of expressions
other than `HdlExprNotImplemented`, docs, the base type of enumerations and the base types and flags of classes are not exported. -/
def toPy : Expr → Except PyErr Py
  | .null => .error .value
  | .id _ s => do
    let s ← pyUnicode dec s
    return .valueId s
  | .int _ v => pyInt dec v
  | .float _ t => .ok (.float t)
  | .str _ s => pyUnicode dec s
  | .symb _ k => .ok (pySymb k)
  | .arr _ l => do
    let l ← toPyList l
    return .list l
  | .op _ o l =>
    match o.toString with
    | .error _ => .error .value
    | .ok n => do
      let l ← toPyList l
      return .op n (.list l)
  | .notImpl p => .ok (.notImpl p)
  | .enumDef _ _ _ ns vs => do
    let l ← toPyPairs ns vs
    return .enumDef (.list l)
  | .physDef _ _ r ns vs => do
    let r ← toPy r
    let l ← toPyPairs (ns.map some) vs
    return .physDef r (.list l)
  | .classDef _ _ _ k ms _ _ => do
    let l ← toPyList ms
    return .classDef k (.list l)
/-- toPy.h 143-160, toPy_expr.cpp 121-141. -/
def toPyList : List Expr → Except PyErr (List Py)
  | [] => .ok []
  | e :: l => do
    let e ← toPy e
    let l ← toPyList l
    return e :: l
/-- toPy_type.cpp 52-87: null names and values become `None`; if a value cannot be converted, lines 77-78 release the null pointer. -/
def toPyPairs : List (Option Str) → List Expr → Except PyErr (List Py)
  | n :: ns, e :: l => do
    let n ← (match n with
      | some n => pyUnicode dec n
      | none => .ok .none)
    let v ← (match e with
      | .null => .ok .none
      | e => ubFail (toPy e))
    let l ← toPyPairs ns l
    return .tuple n v :: l
  | _, _ => .ok []
end
end

end Verif
