import Verif.CppString
/-!
# Specifications of the text helpers (independent of the code model)
-/
namespace Verif.Spec

/-- "Replace every left-to-right non-overlapping occurrence of `s` by `r`, inserted text is not searched again". -/
inductive Replaced (s r : Str) : Str → Str → Prop
  /-- nothing to replace -/
  | done (t : Str) : ¬ s <:+: t → Replaced s r t t
  /-- `pre` is the text in front of the leftmost occurrence of `s` -/
  | step (pre post post' : Str) :
      (∀ u v, pre ++ s ++ post = u ++ s ++ v → pre.length ≤ u.length) →
      Replaced s r post post' → Replaced s r (pre ++ s ++ post) (pre ++ r ++ post')

/-- What the SystemVerilog `` `" `` syntax means for the expanded text, as a one-pass reader.
`inStr`: between an opening and a closing `` `" ``; `bs`: the previous character is a backslash.
The result is `none` iff the last `` `" `` string is not closed. -/
def unescape (inStr bs : Bool) : Str → Option Str
  | [] => if inStr then none else some []
  | c :: r =>
    if c = '`' ∧ r.head? = some '"' ∧ bs = false then
      -- a quote: the back-tick is dropped
      match r with
      | _ :: r' => (unescape (!inStr) false r').map ('"' :: ·)
      | [] => none
    else if c = '\n' ∧ inStr = true ∧ bs = false then
      -- a newline in the string becomes an escaped newline
      (unescape inStr false r).map ('\\' :: '\n' :: ·)
    else (unescape inStr (c = '\\') r).map (c :: ·)

end Verif.Spec
