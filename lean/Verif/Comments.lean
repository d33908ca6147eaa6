import Verif.Literals
/-!
# Model of the doc comment readers (include/hdlConvertor/{vhdlConvertor,svConvertor}/commentParser.h)

The two readers differ only in the marker character and in the token types that are skipped as white space.
-/
namespace Verif

/-- A token of the token stream as far as the comment readers look at it. `ws`: its type is one of the white space types
(vhdl 48-53: TAB, SPACE, NEWLINE, CR, SPACE_CHARACTER; sv: WHITE_SPACE). -/
structure Tok where
  hidden : Bool
  ws : Bool
  text : Str
deriving DecidableEq, Repr

/-- vhdlConvertor/commentParser.h 25-36 and svConvertor/commentParser.h 43-54: the first `while` loop. The argument is
`first_comment_token`; `tokens.get` behind the end throws. -/
def firstComment (tokens : List Tok) : Nat → Except Exc Nat
  | 0 => .ok 0
  | i + 1 =>
    match tokens[i]? with
    | none => .error .outOfRange
    | some t => if t.hidden then firstComment tokens i else .ok (i + 1)

/-- vhdlConvertor/commentParser.h 54-67 and svConvertor/commentParser.h 62-75: the text taken from one token. `mk` is the
marker character (`-` or `/`). `s[start + 3]` is read only if `start + 3 ≤ size`, so it is at most the terminating NUL. -/
def stripComment (mk : Char) (s : Str) : Str :=
  let start := (s.takeWhile isSpaceC).length
  if s.length ≥ start + 2 ∧ s[start]? = some mk ∧ s[start + 1]? = some mk then
    if s.length ≥ start + 3 ∧ charAt s (start + 3) = some ' ' then s.drop (start + 3)
    else s.drop (start + 2)
  else s

/-- vhdlConvertor/commentParser.h 38-71 and svConvertor/commentParser.h 56-79: the `for` loop from `first_comment_token` on. -/
def collectComments (mk : Char) : List Tok → Str
  | [] => []
  | t :: r => (if t.ws then [] else stripComment mk t.text) ++ collectComments mk r

/-- `parse` of both readers; `last` is the index of the first token of the object. -/
def parseDoc (mk : Char) (tokens : List Tok) (last : Nat) : Except Exc Str := do
  let first ← firstComment tokens last
  return collectComments mk ((tokens.take last).drop first)

end Verif
