import Verif.Preproc
/-!
# Model of the Python view of the macro database (hdlConvertor/verilogPreproc.pyx) with the objects on the heap

Addresses are indices into `heap`. Freeing an object keeps its cell with `freed := true`; freeing it again or reading it sets
the sticky flag `bad` (undefined behaviour). Python strings are modelled by their encoded bytes: `str_encode` is injective.
A Python wrapper object is identified with the C++ object it points to; the wrapper has no `__dealloc__`, it never frees.
-/
namespace Verif

/-- An object allocated by `new` (a_macro_def.h 28-49). -/
structure HObj where
  obj : MacroObj
  persistent : Bool
  freed : Bool
deriving DecidableEq, Repr

/-- Heap, `HdlConvertor::defineDB` (`std::map<std::string, aMacroDef*>`), undefined behaviour happened. -/
structure PySt where
  heap : List HObj
  db : List (Str × Nat)
  bad : Bool
deriving DecidableEq, Repr

/-- A fresh `HdlConvertor`. -/
def PySt.empty : PySt := ⟨[], [], false⟩

/-- Python values that can be stored or returned: wrapper (`MacroDefVerilogProxy`) of an object, `NonAccessibleCppObject`,
`str`, `None`, anything else. -/
inductive PyVal
  | proxy (i : Nat)
  | inaccessible
  | str (s : Str)
  | none
  | other
deriving DecidableEq, Repr

inductive PyExc
  | keyError
  /-- `AttributeError`/`TypeError` of `str_encode` on a value that is not a `str` -/
  | typeError
deriving DecidableEq, Repr

/-- Outcome of a Python call; `abort`: a C++ exception leaves a call declared without `except +`: the process ends. -/
inductive PyOut (α : Type)
  | ok (a : α)
  | raise (e : PyExc)
  | abort
deriving DecidableEq, Repr

namespace PySt

/-- `new`. -/
def alloc (s : PySt) (o : MacroObj) : Nat × PySt := (s.heap.length, { s with heap := s.heap ++ [⟨o, false, false⟩] })

/-- A read or write of an object through a pointer. -/
def touch (s : PySt) (i : Nat) : PySt :=
  match s.heap[i]? with
  | some o => if o.freed then { s with bad := true } else s
  | none => { s with bad := true }

/-- `delete`. -/
def free (s : PySt) (i : Nat) : PySt :=
  match s.heap[i]? with
  | some o => if o.freed then { s with bad := true } else { s with heap := s.heap.set i { o with freed := true } }
  | none => { s with bad := true }

/-- `std::map::find`. -/
def find (s : PySt) (k : Str) : Option Nat := (s.db.find? (fun p => p.1 == k)).map Prod.snd

/-- `std::map::operator[]` used as an assignment. -/
def assign (db : List (Str × Nat)) (k : Str) (i : Nat) : List (Str × Nat) :=
  if db.any (fun p => p.1 == k) then db.map (fun p => if p.1 == k then (k, i) else p) else db ++ [(k, i)]

/-- Writing `is_persistent`. -/
def setFlag (s : PySt) (i : Nat) (b : Bool) : PySt :=
  { s.touch i with heap := s.heap.modify i (fun o => { o with persistent := b }) }

/-- verilogPreproc.pyx 188-200 (`MacroDB_iterator_value`): `dynamic_cast` reads the object. -/
def value (s : PySt) (i : Nat) : PyVal × PySt :=
  (match s.heap[i]? with
    | some ⟨.user _, _, _⟩ => .proxy i
    | _ => .inaccessible, s.touch i)

end PySt

/-- Element of the parameter list given to `MacroDefVerilogProxy.new`. -/
inductive PyParam
  | tup (name dflt : Str)
  | plain (name : Str)
deriving DecidableEq, Repr

/-- verilogPreproc.pyx 151-160: names without default are not added. -/
def cppParams : List PyParam → List Param
  | [] => []
  | .tup n d :: r => ⟨n, true, d⟩ :: cppParams r
  | .plain _ :: r => cppParams r

/-- verilogPreproc.pyx 136-164. The constructor is declared without `except +` (35-37). -/
def proxyNew (s : PySt) (name : Str) (params : Option (List PyParam)) (body : PyVal) : PyOut Nat × PySt :=
  let text : Option Str := match body with
    | .none => some []
    | .str t => some t
    | _ => none
  match text with
  | none => (.raise .typeError, s)
  | some t =>
    match MacroDef.new name params.isSome (cppParams (params.getD [])) t with
    | .ok m => (.ok (s.alloc (.user m)).1, (s.alloc (.user m)).2)
    | .error _ => (.abort, s)

/-- verilogPreproc.pyx 62-79: text of one fragment; `Fragment.str` of a parameter is empty. Indexing `params` out of range is
undefined. -/
def bodyFrag (m : MacroDef) : Frag → Option Str
  | .lit t => some t
  | .arg i => if 0 < i then (m.params[i]?).map Param.name else some []

/-- verilogPreproc.pyx 62-79 (`none`: undefined behaviour). -/
def MacroDef.getBody (m : MacroDef) : Option Str := (m.frags.mapM (bodyFrag m)).map List.flatten

/-- verilogPreproc.pyx 81-102. -/
def MacroDef.getParams (m : MacroDef) : Option (List PyParam) :=
  if ¬ m.hasParams then none
  else some (m.params.map fun p => if p.hasDef then .tup p.name p.defVal else .plain p.name)

namespace PySt

/-- verilogPreproc.pyx 239-244 (`get`). -/
def get (s : PySt) (k : Str) (dflt : PyVal) : PyOut PyVal × PySt :=
  match s.find k with
  | none => (.ok dflt, s)
  | some i => (.ok (s.value i).1, (s.value i).2)

/-- verilogPreproc.pyx 264-272 (`__getitem__`). -/
def getItem (s : PySt) (k : Str) : PyOut PyVal × PySt :=
  match s.find k with
  | none => (.raise .keyError, s)
  | some i => (.ok (s.value i).1, (s.value i).2)

/-- verilogPreproc.pyx 274-276 (`__contains__`). -/
def contains (s : PySt) (k : Str) : Bool := (s.find k).isSome

/-- verilogPreproc.pyx 320-321. -/
def len (s : PySt) : Nat := s.db.length

/-- verilogPreproc.pyx 278-294 (`__setitem__`). -/
def setItem (s : PySt) (k : Str) (v : PyVal) : PyOut Unit × PySt :=
  match (match v with
    | .proxy i => (.ok i, s)
    | v => proxyNew s k none v : PyOut Nat × PySt) with
  | (.ok i, s) => (.ok (), { s.setFlag i true with db := assign s.db k i })
  | (.raise e, s) => (.raise e, s)
  | (.abort, s) => (.abort, s)

/-- verilogPreproc.pyx 246-252. -/
def setDefault (s : PySt) (k : Str) (dflt : PyVal) : PyOut PyVal × PySt :=
  match s.find k with
  | none =>
    match s.setItem k dflt with
    | (.ok (), s) => (.ok dflt, s)
    | (.raise e, s) => (.raise e, s)
    | (.abort, s) => (.abort, s)
  | some i => (.ok (s.value i).1, (s.value i).2)

/-- verilogPreproc.pyx 254-262; `dflt = none`: no default given. -/
def pop (s : PySt) (k : Str) (dflt : Option PyVal) : PyOut PyVal × PySt :=
  match s.find k with
  | none =>
    match dflt with
    | none => (.raise .keyError, s)
    | some v => (.ok v, s)
  | some i => (.ok (s.value i).1, (s.value i).2)

/-- verilogPreproc.pyx 296-303 (`__delitem__`). -/
def delItem (s : PySt) (k : Str) : PyOut Unit × PySt :=
  match s.find k with
  | none => (.raise .keyError, s)
  | some i => (.ok (), { s.free i with db := s.db.filter (fun p => p.1 != k) })

/-- verilogPreproc.pyx 326-328; stops at the first exception. -/
def update (s : PySt) : List (Str × PyVal) → PyOut Unit × PySt
  | [] => (.ok (), s)
  | (k, v) :: r =>
    match s.setItem k v with
    | (.ok (), s) => s.update r
    | (.raise e, s) => (.raise e, s)
    | (.abort, s) => (.abort, s)

/-- verilogPreproc.pyx 330-333: the loop over `values()` reads each object, `del v` only unbinds the Python name. -/
def clear (s : PySt) : PySt := { s.db.foldl (fun s p => s.touch p.2) s with db := [] }

/-- hdlConvertor.cpp 158-162 (`~HdlConvertor`). -/
def destroy (s : PySt) : PySt := s.db.foldl (fun s p => s.free p.2) s

end PySt

/-! ## What a preprocessor run does with the database -/

/-- The accesses to the database in a run. -/
inductive RunStep
  /-- visitDefine, macroDB_add_default_defs: `db.insert({k, new ...})` -/
  | insert (k : Str) (o : MacroObj)
  | undef (k : Str)
  | undefineall
  /-- macro call: the object is read -/
  | use (k : Str)
deriving DecidableEq, Repr

/-- Objects: `insert` allocates also if the key is present (verilogPreproc.cpp 219-220, default_macro_defs.cpp 57-58);
`undef` (verilogPreproc.cpp 136-140) reads the erased map node for `delete`; `delete_non_persystent_macro_defs`
(verilogPreprocContainer.cpp 114-123) erases and does not delete. -/
def PySt.step (s : PySt) : RunStep → PySt
  | .insert k o =>
    let (i, s) := s.alloc o
    if (s.find k).isSome then s else { s with db := s.db ++ [(k, i)] }
  | .undef k =>
    match s.find k with
    | none => s
    | some i =>
      match s.heap[i]? with
      | some o =>
        if o.persistent then s.touch i
        else { (s.touch i).free i with db := s.db.filter (fun p => p.1 != k), bad := true }
      | none => { s with bad := true }
  | .undefineall =>
    { s.db.foldl (fun s p => s.touch p.2) s with
      db := s.db.filter (fun p => (s.heap[p.2]?).any (fun o => o.persistent)) }
  | .use k =>
    match s.find k with
    | none => s
    | some i => s.touch i

/-- The same access on the database of the preprocessor model (`Verif/Preproc.lean`), without heap. The second component:
undefined behaviour (`visitUndef`). -/
def RunStep.onDb : RunStep → MacroDB × Bool → MacroDB × Bool
  | .insert k o, (db, b) => (db.insert k ⟨o, false⟩, b)
  | .undef k, (db, b) =>
    match db.find k with
    | some item => if item.persistent then (db, b) else (db.erase k, true)
    | none => (db, b)
  | .undefineall, (db, b) => (db.deleteNonPersistent, b)
  | .use _, (db, b) => (db, b)

/-- The database with the objects instead of the pointers, as the preprocessor model uses it. -/
def PySt.contents (s : PySt) : MacroDB :=
  s.db.filterMap fun p => (s.heap[p.2]?).map fun o => (p.1, ⟨o.obj, o.persistent⟩)

/-! ## Histories -/

/-- The operations of a user of one convertor object. -/
inductive PyOp
  /-- `MacroDefVerilog.new(name, params, body)` -/
  | new (name : Str) (params : Option (List PyParam)) (body : PyVal)
  | set (k : Str) (v : PyVal)
  | del (k : Str)
  | get (k : Str) (dflt : PyVal)
  | getItem (k : Str)
  | setDefault (k : Str) (v : PyVal)
  | pop (k : Str) (dflt : Option PyVal)
  | clear
  /-- `get_body()`, `get_params()`, `name`, ... of a wrapper -/
  | access (i : Nat)
  /-- `p.is_persistent = b` -/
  | setPersistent (i : Nat) (b : Bool)
  /-- a run of the preprocessor with these accesses -/
  | run (l : List RunStep)
deriving DecidableEq, Repr

/-- State after an operation. -/
def PySt.exec (s : PySt) : PyOp → PySt
  | .new n p b => (proxyNew s n p b).2
  | .set k v => (s.setItem k v).2
  | .del k => (s.delItem k).2
  | .get k d => (s.get k d).2
  | .getItem k => (s.getItem k).2
  | .setDefault k v => (s.setDefault k v).2
  | .pop k d => (s.pop k d).2
  | .clear => s.clear
  | .access i => s.touch i
  | .setPersistent i b => s.setFlag i b
  | .run l => l.foldl PySt.step s

def PySt.execAll (s : PySt) (ops : List PyOp) : PySt := ops.foldl PySt.exec s

end Verif
