import Verif.CppString
/-!
# Model of the matching algorithm of ANTLR lexers

`antlr4::Lexer::nextToken` and `LexerATNSimulator::match` of the ANTLR 4 C++ runtime (not part of /repo, the runtime the
code is linked with): in the current mode the rule with the longest match wins, on a tie the rule which is written
first. Rules are regular expressions over characters and the end of the input. The end of the input is a symbol of its
own: a match which uses it is longer than a match of the same characters without it (`execATN` captures the accept state
again after the transition on EOF).

A non-greedy loop `.*? X` is written in this model as the regular expression of its shortest matches.
-/
namespace Verif.Antlr

/-- Input symbol, `none` is the end of the input. -/
abbrev Sym := Option Char

/-- Regular expressions of lexer rules. -/
inductive Re
  | empty
  | eps
  /-- one of the characters -/
  | set (l : List Char)
  /-- a character which is not one of these (`~[...]` never matches the end of the input) -/
  | non (l : List Char)
  /-- a range `[lo-hi]` -/
  | rng (lo hi : Char)
  /-- the end of the input -/
  | eof
  | seq (a b : Re)
  | alt (a b : Re)
  | star (a : Re)
deriving DecidableEq, Repr

namespace Re

/-- The expression matches the empty input. -/
def nullable : Re → Bool
  | empty => false
  | eps => true
  | set _ => false
  | non _ => false
  | rng _ _ => false
  | eof => false
  | seq a b => a.nullable && b.nullable
  | alt a b => a.nullable || b.nullable
  | star _ => true

/-- Sequence without the trivial cases. -/
def mkSeq : Re → Re → Re
  | empty, _ => empty
  | eps, b => b
  | a, b => if b = empty then empty else seq a b

/-- Alternative without the trivial cases. -/
def mkAlt : Re → Re → Re
  | empty, b => b
  | a, b => if b = empty then a else if a = b then a else alt a b

/-- Does a class match the symbol. -/
def one (b : Bool) : Re := if b then eps else empty

/-- A class tested on a symbol; the end of the input is in no class. -/
def test (p : Char → Bool) : Sym → Bool
  | some c => p c
  | none => false

/-- What is left to match after the symbol. -/
def der (c : Sym) : Re → Re
  | empty => empty
  | eps => empty
  | set l => one (test (fun x => l.contains x) c)
  | non l => one (test (fun x => !l.contains x) c)
  | rng lo hi => one (test (fun x => lo.toNat ≤ x.toNat && x.toNat ≤ hi.toNat) c)
  | eof => one c.isNone
  | seq a b => if a.nullable then mkAlt (mkSeq (a.der c) b) (b.der c) else mkSeq (a.der c) b
  | alt a b => mkAlt (a.der c) (b.der c)
  | star a => mkSeq (a.der c) (star a)

/-- Number of symbols of the longest match at the start of the input. -/
def longest : Re → List Sym → Option Nat
  | r, [] => if r.nullable then some 0 else none
  | r, c :: s =>
    if r = empty then none
    else match longest (r.der c) s with
      | some n => some (n + 1)
      | none => if r.nullable then some 0 else none

/-- The literal `'abc'`. -/
def lit : Str → Re
  | [] => eps
  | [c] => set [c]
  | c :: s => seq (set [c]) (lit s)

/-- `r?` -/
def opt (r : Re) : Re := alt r eps

/-- `r+` -/
def plus (r : Re) : Re := seq r (star r)

/-- A sequence of expressions. -/
def seqs : List Re → Re
  | [] => eps
  | [r] => r
  | r :: rs => seq r (seqs rs)

/-- Alternatives. -/
def alts : List Re → Re
  | [] => empty
  | [r] => r
  | r :: rs => alt r (alts rs)

end Re

/-- The symbols of the rest of the input. -/
def syms (s : Str) : List Sym := s.map some ++ [none]

/-- The rule with the longest match, the first one of those: result and number of symbols. -/
def pick {α : Type} (re : α → Re) : List α → List Sym → Option (α × Nat)
  | [], _ => none
  | r :: rs, s =>
    match (re r).longest s, pick re rs s with
    | none, p => p
    | some n, none => some (r, n)
    | some n, some (q, k) => if n < k then some (q, k) else some (r, n)

/-- Position behind a text: line (from 1), column (from 0) (`LexerATNSimulator::consume`). -/
def advance : Nat × Nat → Str → Nat × Nat
  | p, [] => p
  | (l, k), c :: s => if c = '\n' then advance (l + 1, 0) s else advance (l, k + 1) s

end Verif.Antlr
