import Verif.MacroDef
/-!
# Model of `MacroDB` (include/hdlConvertor/verilogPreproc/macroDB.h: `std::map<std::string, aMacroDef*>`)

The map is an association list with unique keys (`MacroDB.Uniq`); the order of the entries (lexicographic in C++) is only
observable through iteration and not modelled.
-/
namespace Verif

/-- a_macro_def.h and default_macro_defs.h: the classes derived from `aMacroDef`. -/
inductive MacroObj
  | user (m : MacroDef)
  | line
  | file
deriving DecidableEq, Repr

/-- The object behind the pointer, with the flag `is_persistent` (a_macro_def.h 36). -/
structure DbItem where
  obj : MacroObj
  persistent : Bool
deriving DecidableEq, Repr

abbrev MacroDB := List (Str × DbItem)

namespace MacroDB

/-- `std::map::find`. -/
def find (db : MacroDB) (k : Str) : Option DbItem := (List.find? (fun p => p.1 == k) db).map Prod.snd

/-- `std::map::insert`: does nothing if the key is present. -/
def insert (db : MacroDB) (k : Str) (v : DbItem) : MacroDB :=
  if (db.find k).isSome then db else db ++ [(k, v)]

/-- `std::map::erase`. -/
def erase (db : MacroDB) (k : Str) : MacroDB := List.filter (fun p => p.1 != k) db

/-- `std::map::operator[]` used as an assignment. -/
def assign (db : MacroDB) (k : Str) (v : DbItem) : MacroDB :=
  if (db.find k).isSome then List.map (fun p => if p.1 == k then (k, v) else p) db else db ++ [(k, v)]

/-- verilogPreprocContainer.cpp 114-123. -/
def deleteNonPersistent (db : MacroDB) : MacroDB := List.filter (fun p => p.2.persistent) db

/-- default_macro_defs.cpp 55-60; `lang ≥ SV2009`. -/
def addDefaults (db : MacroDB) (lang : Nat) : MacroDB :=
  if 6 ≤ lang then (db.insert (c! "__LINE__") ⟨.line, false⟩).insert (c! "__FILE__") ⟨.file, false⟩ else db

/-- Keys are unique (invariant of `std::map`). -/
def Uniq (db : MacroDB) : Prop := (List.map Prod.fst db).Nodup

end MacroDB
end Verif
