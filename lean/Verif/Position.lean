import Verif.Antlr
import Verif.HdlAst
import Verif.Sv.Lexer
import Verif.Vhdl.Lexer
/-!
# Model of the positions of tokens and objects

The places of tokens as the ANTLR runtime gives them, and include/hdlConvertor/hdlAst/codePosition.h, include/hdlConvertor/createObject.h.
-/
namespace Verif.Position
open Verif.Antlr

/-- The place of a token (`antlr4::CommonToken`): line from 1, column from 0, indices of the first and of the last character in the
text (`Lexer::emit`: `tokenStartLine`, `tokenStartCharPositionInLine`, `tokenStartCharIndex`, `getCharIndex() - 1`). -/
structure TokPos where
  line : Nat
  col : Nat
  start : Nat
  stop : Nat
deriving DecidableEq, Repr

/-- `Lexer::nextToken` until the end of the input with the places of the tokens. `next` is one step of a lexer in a state: the token if it is not
hidden, the number of characters, and the next state. The line and the column are kept by `LexerATNSimulator::consume` (`advance`). -/
def scan {σ τ : Type} (next : σ → Str → Option (Option τ × Nat × σ)) : Nat → σ → Nat × Nat → Nat → Str → Option (List (τ × TokPos))
  | _, _, _, _, [] => some []
  | 0, _, _, _, _ => none
  | fuel + 1, st, p, i, s =>
    match next st s with
    | none => none
    | some (t, n, st') =>
      match scan next fuel st' (advance p (s.take n)) (i + n) (s.drop n) with
      | none => none
      | some ts => some (match t with
        | none => ts
        | some t => (t, ⟨p.1, p.2, i, i + n - 1⟩) :: ts)

/-- A step of the SystemVerilog lexer (grammars/sv2017Lexer.g4) in `Sv/Lexer.lean`; the state says whether the mode is TABLE_MODE. -/
def svNext (v : Nat) (m : Bool) (s : Str) : Option (Option Sv.LTok × Nat × Bool) :=
  match pick Sv.SRule.re (Sv.rulesOf v m) (syms s) with
  | none => none
  | some (r, n) => some (if r.hide then none else some ⟨r.ty, Sv.utf8 (s.take n)⟩, n, Sv.nextMode m r.ty)
/-- The tokens of the SystemVerilog lexer with their places. -/
def svTokens (v : Nat) (s : Str) : Option (List (Sv.LTok × TokPos)) := scan (svNext v) s.length false (1, 0) 0 s

/-- A step of the VHDL lexer (grammars/vhdlLexer.g4) in `Vhdl/Lexer.lean`. -/
def vhdlNext (_ : Unit) (s : Str) : Option (Option Vhdl.VTok × Nat × Unit) :=
  match pick Vhdl.LRule.re (Vhdl.rulesAt s) (syms s) with
  | none => none
  | some (r, n) => some (if r.hide then none else some ⟨r.ty, Vhdl.utf8 (s.take n)⟩, n, ())
/-- The tokens of the VHDL lexer with their places. -/
def vhdlTokens (s : Str) : Option (List (Vhdl.VTok × TokPos)) := scan vhdlNext s.length () (1, 0) 0 s

/-- Arithmetic of `size_t`. -/
def size (n : Nat) : Nat := n % 2 ^ 64

/-- include/hdlConvertor/hdlAst/codePosition.h 25-32 (`CodePosition::update_from_elem`): `a` is `getStart()`, `b` is `getStop()` of the
context. -/
def fromElem (a b : TokPos) : CodePos where
  startLine := a.line
  stopLine := b.line
  startCol := size (a.col + 1)
  stopCol := size (b.col + (b.stop + 2 ^ 64 - b.start) + 1)

/-- A node of the parse tree: a rule context with its first token and its last token, or a token with its parent. The first token of a context
is the token the parser looks at when the rule is entered (`ParserRuleContext::start = _input->LT(1)`), its last token the one read last
when the rule is left (`stop = _input->LT(-1)`): for a rule which has read nothing the token in front of the start. -/
inductive Node
  | rule (start stop : TokPos)
  | terminal (parent : Node)

/-- include/hdlConvertor/createObject.h 13-33 (`update_code_position`): the position an object gets from a node; the position of a token
is that of the context it is part of. `none`: the position stays unknown. The parent of a token is always a context. -/
def updateCodePosition : Option Node → Option CodePos
  | some (.rule a b) => some (fromElem a b)
  | some (.terminal (.rule a b)) => some (fromElem a b)
  | _ => none

end Verif.Position
