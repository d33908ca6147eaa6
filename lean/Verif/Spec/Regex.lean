import Verif.Antlr
/-!
# Spec: what a regular expression of a lexer rule matches

The language of an expression, independent of the matching algorithm.
-/
namespace Verif.Spec
open Verif.Antlr

/-- The expression matches exactly this sequence of symbols. -/
inductive Matches : Re → List Sym → Prop
  | eps : Matches .eps []
  | set {l : List Char} {c : Char} (h : c ∈ l) : Matches (.set l) [some c]
  | non {l : List Char} {c : Char} (h : c ∉ l) : Matches (.non l) [some c]
  | rng {lo hi c : Char} (h : lo.toNat ≤ c.toNat) (h' : c.toNat ≤ hi.toNat) : Matches (.rng lo hi) [some c]
  | eof : Matches .eof [none]
  | seq {a b : Re} {s t : List Sym} (ha : Matches a s) (hb : Matches b t) : Matches (.seq a b) (s ++ t)
  | altL {a b : Re} {s : List Sym} (h : Matches a s) : Matches (.alt a b) s
  | altR {a b : Re} {s : List Sym} (h : Matches b s) : Matches (.alt a b) s
  | star0 {a : Re} : Matches (.star a) []
  | star {a : Re} {s t : List Sym} (ha : Matches a s) (hs : Matches (.star a) t) : Matches (.star a) (s ++ t)

end Verif.Spec
