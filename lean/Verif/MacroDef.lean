import Verif.CppString
import Mathlib.Data.List.Sort
/-!
# Model of `MacroDefVerilog` (src/verilogPreproc/macro_def_verilog.cpp, include/.../macro_def_verilog.h)
-/
namespace Verif

/-- macro_def_verilog.h 31-35 (`param_info_t`). -/
structure Param where
  name : Str
  hasDef : Bool
  defVal : Str
deriving DecidableEq, Repr

/-- macro_def_verilog.h 39-50 (`Fragment`): `arg_no < 0` is `lit`. -/
inductive Frag
  | lit (s : Str)
  | arg (i : Nat)
deriving DecidableEq, Repr

/-- `isalnum` in the "C" locale. (For negative `char` values the C function is undefined; the model returns false for
every non-ASCII character.) -/
def isAlnum (c : Char) : Bool :=
  ('a' ≤ c && c ≤ 'z') || ('A' ≤ c && c ≤ 'Z') || ('0' ≤ c && c ≤ '9')

/-- macro_def_verilog.cpp 58-59: test of the character in front of a candidate. -/
def isWordPre (c : Char) : Bool := isAlnum c || c == '_' || c == '$'

/-- macro_def_verilog.cpp 78-80: test of the character behind a candidate. -/
def isWordPost (c : Char) : Bool := isAlnum c || c == '_' || c == '$' || c == '(' || c == '[' || c == '{'

/-- macro_def_verilog.cpp 128-150, the `while` loop. Result: list of (start, length). -/
def collectLoop (name tmpl : Str) : Nat → Nat → Option Nat → List (Nat × Nat) → Except Exc (List (Nat × Nat))
  | 0, _, _, _ => .error .fuel
  | fuel + 1, pos, prev, acc =>
    match find tmpl ['"'] pos with
    | none =>
      match prev with
      | none => .ok acc
      | some _ => .error (.parse (c! "Unfinished string in definition of macro " ++ name ++ c! "."))
    | some p =>
      let isEscaped := p ≠ 0 ∧ (tmpl[p - 1]? = some '`' ∨ tmpl[p - 1]? = some '\\')
      if isEscaped then collectLoop name tmpl fuel (p + 1) prev acc
      else match prev with
        | none => collectLoop name tmpl fuel (p + 1) (some p) acc
        | some q => collectLoop name tmpl fuel (p + 1) none (acc ++ [(q, p - q)])

/-- macro_def_verilog.cpp 128-150. -/
def collectStringIntervals (name tmpl : Str) : Except Exc (List (Nat × Nat)) :=
  collectLoop name tmpl (tmpl.length + 1) 0 none []

/-- macro_def_verilog.cpp 117-124. -/
def checkIsInString (ints : List (Nat × Nat)) (start : Nat) : Option (Nat × Nat) :=
  ints.find? (fun p => p.1 ≤ start && start < p.1 + p.2)

/-- macro_def_verilog.cpp 56-64: there is a character in front of the candidate and it is an identifier character. -/
def preBad (body : Str) (pos : Nat) : Bool :=
  if 0 < pos then
    match body[pos - 1]? with
    | some c => isWordPre c
    | none => false
  else false

/-- macro_def_verilog.cpp 54-96: the `while` loop which collects the usages of one parameter. -/
def usageLoop (body : Str) (ints : List (Nat × Nat)) (name : Str) : Nat → Nat → List Nat → Except Exc (List Nat)
  | 0, _, _ => .error .fuel
  | fuel + 1, pos, acc =>
    match find body name pos with
    | none => .ok acc
    | some p =>
      if preBad body p then usageLoop body ints name fuel (p + 1) acc
      else match charAt body (p + name.length) with
        | none => .error .ub
        | some cPost =>
          if isWordPost cPost then usageLoop body ints name fuel (p + 1) acc
          else match checkIsInString ints p with
            | some s => usageLoop body ints name fuel (s.1 + s.2) acc
            | none => usageLoop body ints name fuel (p + 1) (acc ++ [p])

/-- macro_def_verilog.cpp 52-97: usages of all parameters, in the order they are pushed. -/
def allUsages (body : Str) (ints : List (Nat × Nat)) : Nat → List Param → Except Exc (List (Nat × Nat))
  | _, [] => .ok []
  | i, p :: ps => do
    let u ← usageLoop body ints p.name (body.length + 2) 0 []
    let r ← allUsages body ints (i + 1) ps
    return u.map (fun x => (x, i)) ++ r

/-- `operator<` of `std::pair` (as ≤), used by `std::sort` in line 98. -/
def pairLe (a b : Nat × Nat) : Prop := a.1 < b.1 ∨ (a.1 = b.1 ∧ a.2 ≤ b.2)

instance : DecidableRel pairLe := fun a b => by unfold pairLe; infer_instance

/-- macro_def_verilog.cpp 99-112: cut the body at the usages. -/
def cutBody (params : List Param) (body : Str) : Nat → List (Nat × Nat) → Except Exc (List Frag)
  | start, [] =>
    if start ≠ body.length then
      match substr body start with
      | some s => .ok [.lit s]
      | none => .error .outOfRange
    else .ok []
  | start, (p, i) :: us =>
    match params[i]? with
    | none => .error .ub
    | some prm => do
      let pre : List Frag ← if start < p then
          match substr body start (some (p - start)) with
          | some s => .ok [.lit s]
          | none => .error .outOfRange
        else .ok []
      let r ← cutBody params body (p + prm.name.length) us
      return pre ++ [.arg i] ++ r

/-- macro_def_verilog.cpp 38-113. -/
def parseBody (name : Str) (params : List Param) (body : Str) : Except Exc (List Frag) := do
  let ints ← collectStringIntervals name body
  if body = [] ∨ params = [] then
    if body = [] then return [] else return [.lit body]
  let us ← allUsages body ints 0 params
  cutBody params body 0 (us.insertionSort pairLe)

/-- macro_def_verilog.h 23-70: a macro object. -/
structure MacroDef where
  name : Str
  hasParams : Bool
  params : List Param
  frags : List Frag
deriving DecidableEq, Repr

/-- macro_def_verilog.cpp 14-18. -/
def MacroDef.new (name : Str) (hasParams : Bool) (params : List Param) (body : Str) : Except Exc MacroDef := do
  return ⟨name, hasParams, params, ← parseBody name params body⟩

/-- macro_def_verilog.cpp 171-201: completion of the argument list with default values.
`i` is the loop counter, `orig` is `orig_args_cnt`. The tail of the message (expected counts) is omitted. -/
def completeArgs (name : Str) (orig : Nat) : Nat → List Param → List Str → Except Exc (List Str)
  | _, [], args => .ok args
  | i, p :: ps, args =>
    let valueRequired := i ≥ orig
    let useDefault : Except Exc Bool :=
      if valueRequired then .ok true
      else match args[i]? with
        | some a => .ok (a.length == 0)
        | none => .error .ub
    match useDefault with
    | .error e => .error e
    | .ok false => completeArgs name orig (i + 1) ps args
    | .ok true =>
      if !p.hasDef then
        if ¬ valueRequired then completeArgs name orig (i + 1) ps args
        else if args.length = 0 then completeArgs name orig (i + 1) ps (args ++ [[]])
        else .error (.parse (c! "Macro " ++ name ++ c! " missing value for parameter " ++ p.name))
      else if i < orig then completeArgs name orig (i + 1) ps (args.set i p.defVal)
      else completeArgs name orig (i + 1) ps (args ++ [p.defVal])

/-- macro_def_verilog.cpp 208-219: concatenation of the fragments; `args.at` throws `out_of_range`. -/
def joinFrags (args : List Str) : List Frag → Except Exc Str
  | [] => .ok []
  | .lit s :: r => do return s ++ (← joinFrags args r)
  | .arg i :: r =>
    match args[i]? with
    | none => .error .outOfRange
    | some a => do return a ++ (← joinFrags args r)

/-- macro_def_verilog.cpp 156-220 (tails of the messages omitted). -/
def MacroDef.replace (m : MacroDef) (args : List Str) (argsSpecified : Bool) : Except Exc Str :=
  if m.hasParams ∧ ¬ argsSpecified then .error (.parse (c! "Macro " ++ m.name ++ c! " requires braces"))
  else if ¬ m.hasParams ∧ argsSpecified then
    .error (.parse (c! "Macro " ++ m.name ++ c! " does not support arguments"))
  else if args.length ≤ m.params.length then do
    let args ← completeArgs m.name args.length 0 m.params args
    joinFrags args m.frags
  else .error (.parse (c! "Macro " ++ m.name ++ c! " expected other number of arguments"))

end Verif
