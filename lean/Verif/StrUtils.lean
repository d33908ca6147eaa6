import Verif.CppString
/-!
# Model of `src/verilogPreproc/str_utils.cpp`
-/
namespace Verif

/-- `str.find_first_not_of(chars)`. -/
def findFirstNotOf (chars : Str) : Str → Option Nat
  | [] => none
  | c :: cs => if c ∈ chars then (findFirstNotOf chars cs).map (· + 1) else some 0

/-- `str.find_last_not_of(chars)`. -/
def findLastNotOf (chars : Str) (s : Str) : Option Nat :=
  (findFirstNotOf chars s.reverse).map (fun k => s.length - 1 - k)

/-- str_utils.cpp 10-13: `str.erase(str.find_last_not_of(chars) + 1)`; `npos + 1` wraps to 0 and erases everything. -/
def rtrim (s chars : Str) : Str :=
  match findLastNotOf chars s with
  | none => s.take 0
  | some i => s.take (i + 1)

/-- str_utils.cpp 15-18: `str.erase(0, str.find_first_not_of(chars))`; `npos` erases everything. -/
def ltrim (s chars : Str) : Str :=
  match findFirstNotOf chars s with
  | none => s.drop s.length
  | some i => s.drop i

/-- str_utils.cpp 20-22. -/
def trim (s chars : Str) : Str := rtrim (ltrim s chars) chars

/-- include/hdlConvertor/verilogPreproc/str_utils.h 10-12: default argument of rtrim/ltrim/trim. -/
def wsChars : Str := [' ', '\t', '\n', '\r']

/-- str_utils.cpp 34-40 (`replace_substring`), and the identical loop of `replaceStringInPlace` 24-31.
The `while` loop; one unit of fuel per evaluation of the loop condition. -/
def replaceLoop (search repl : Str) : Nat → Str → Nat → Except Exc Str
  | 0, _, _ => .error .fuel
  | fuel + 1, str, pos =>
    match find str search pos with
    | none => .ok str
    | some p => replaceLoop search repl fuel (replaceAt str p search.length repl) (p + repl.length)

/-- str_utils.cpp 34-40. Fuel `str.size() + 1` (shown sufficient for a non-empty `search`). -/
def replaceSubstring (str search repl : Str) : Except Exc Str :=
  replaceLoop search repl (str.length + 1) str 0

/-- The two characters `` `" ``. -/
def btQuote : Str := ['`', '"']

/-- str_utils.cpp 55-62: the inner `for` loop which escapes newlines in `[i, start)`. Returns the edited
string and the updated `start_pos`. `str[in_str_i - 1]` for `in_str_i = 0` is `str[npos]`: undefined behaviour. -/
def escNlLoop : Nat → Str → Nat → Nat → Except Exc (Str × Nat)
  | 0, _, _, _ => .error .fuel
  | fuel + 1, str, i, start =>
    if i < start then
      match str[i]? with
      | none => .error .ub
      | some c =>
        if c = '\n' then
          if i = 0 then .error .ub
          else match str[i - 1]? with
            | none => .error .ub
            | some d =>
              if d ≠ '\\' then escNlLoop fuel (replaceAt str i 0 ['\\']) (i + 1) (start + 1)
              else escNlLoop fuel str (i + 1) start
        else escNlLoop fuel str (i + 1) start
    else .ok (str, start)

/-- str_utils.cpp 46-67: the `while` loop; `prev = none` is `prev_start_pos == npos`. -/
def unescapeLoop : Nat → Str → Nat → Option Nat → Except Exc Str
  | 0, _, _, _ => .error .fuel
  | fuel + 1, str, startPos, prev =>
    match find str btQuote startPos with
    | none =>
      match prev with
      | none => .ok str
      | some _ => .error (.parse (c! "Unfinished `\" string"))
    | some p =>
      let isEscaped := p ≠ 0 ∧ str[p - 1]? = some '\\'
      if isEscaped then unescapeLoop fuel str (p + 1) prev
      else
        let str := replaceAt str p 1 []
        match prev with
        | none => unescapeLoop fuel str (p + 1) (some p)
        | some q =>
          match escNlLoop (2 * str.length + 1) str q p with
          | .error e => .error e
          | .ok (str, p) => unescapeLoop fuel str (p + 1) none

/-- str_utils.cpp 42-70. -/
def unescapeStringDblquotes (str : Str) : Except Exc Str :=
  unescapeLoop (str.length + 1) str 0 none

end Verif
