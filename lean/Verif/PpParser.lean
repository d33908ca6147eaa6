import Verif.PpLexer
import Verif.Preproc
/-!
# Model of the parser of the Verilog preprocessor (grammars/verilogPreprocParser.g4)

The grammar can be parsed with one token of lookahead, so the ALL(*) parser of ANTLR finds the parse if there is one; a
token sequence which is not in the language of the grammar, or where a semantic predicate fails, gives at least one
syntax error. The result is the tree the visitors read (`Verif.Nodes`). What the errors look like is not modelled
(`errs` is arbitrary).
-/
namespace Verif.Pp

/-- A token of the default channel with the tokens of other channels directly in front of it. -/
structure PTok where
  tok : Tok
  hid : List Tok
deriving DecidableEq, Repr

/-- The default channel of the token stream (`CommonTokenStream`), ended by EOF. -/
def group : List Tok → List Tok → List PTok
  | hid, [] => [⟨⟨.EOF, .default, c! "<EOF>", 0, 0, 0, 0⟩, hid⟩]
  | hid, t :: r => if t.chan = .default then ⟨t, hid⟩ :: group [] r else group (hid ++ [t]) r

/-- Tokens `text` copies (lines 19-29). -/
def copied : TT → Bool
  | .LINE_COMMENT => true
  | .CODE => true
  | .NEW_LINE => true
  | .NUM => true
  | .ID => true
  | .STR => true
  | .COMMENT => true
  | _ => false

/-- `TokenStream::getText(interval)`: the tokens with everything between them. -/
def rawText : List PTok → Str
  | [] => []
  | t :: r => t.tok.text ++ r.flatMap (fun p => p.hid.flatMap Tok.text ++ p.tok.text)

/-- The hidden tokens between the first and the last token which `remove_comment` looks for
(verilogPreproc.cpp 492-508). -/
def commentToks (l : List PTok) : List CommentTok :=
  (l.drop 1).flatMap fun p => p.hid.flatMap fun t =>
    match t.chan, t.text with
    | .lineEscape, c :: s => [⟨true, c, s⟩]
    | .lineComment, c :: s => [⟨false, c, s⟩]
    | _, _ => []

/-- The type of the next token. -/
def nextTy : List PTok → TT
  | [] => .EOF
  | t :: _ => t.tok.ty

/-- The line of the next token: the start of an (also empty) rule. -/
def nextLine : List PTok → Nat
  | [] => 0
  | t :: _ => t.tok.line

/-- `X*` for a token type. -/
def many (ty : TT) : List PTok → List PTok × List PTok
  | [] => ([], [])
  | t :: r => if t.tok.ty = ty then (t :: (many ty r).1, (many ty r).2) else ([], t :: r)

/-- One token of the given type. -/
def expect (ty : TT) : List PTok → Option (PTok × List PTok)
  | [] => none
  | t :: r => if t.tok.ty = ty then some (t, r) else none

/-- Concatenation of token texts (`RuleContext::getText`). -/
def texts (l : List PTok) : Str := l.flatMap (fun p => p.tok.text)

/-- line 107: `var_id: COMMENT* ID COMMENT*`. -/
def varId (ts : List PTok) : Option (Str × List PTok) := do
  let (a, ts) := many .COMMENT ts
  let (i, ts) ← expect .ID ts
  let (b, ts) := many .COMMENT ts
  return (texts a ++ i.tok.text ++ texts b, ts)

/-- lines 65-67, and `var_id` of line 69 for the languages without default values (verilogPreproc.cpp 151-189). -/
def param (lang : Nat) (ts : List PTok) : Option (Param × List PTok) := do
  let (n, ts) ← varId ts
  if 6 ≤ lang then
    match expect .EQUAL ts with
    | some (_, ts) =>
      let (d, ts) := many .CODE ts
      return (⟨n, true, texts d⟩, ts)
    | none => return (⟨n, false, []⟩, ts)
  else return (⟨n, false, []⟩, ts)

/-- lines 57-70. Fuel: number of tokens. -/
def params (lang : Nat) : Nat → List PTok → Option (List Param × List PTok)
  | 0, _ => none
  | fuel + 1, ts => do
    let (p, ts) ← param lang ts
    match expect .COMMA ts with
    | some (_, ts) =>
      let (ps, ts) ← params lang fuel ts
      return (p :: ps, ts)
    | none => return ([p], ts)

/-- line 54: `( LP (define_args)? RP )?` -/
def defineArgs (lang : Nat) (ts : List PTok) : Option (Option (List Param) × List PTok) :=
  match expect .LP ts with
  | none => some (none, ts)
  | some (_, ts) =>
    match expect .RP ts with
    | some (_, ts) => some (none, ts)
    | none => do
      let (ps, ts) ← params lang (ts.length + 1) ts
      let (_, ts) ← expect .RP ts
      return (some ps, ts)

/-- line 54: `(LINE_COMMENT | NEW_LINE | EOF)`; EOF stays in the stream. -/
def endOfDefine (ts : List PTok) : Option (List PTok) :=
  match nextTy ts with
  | .LINE_COMMENT => some (ts.drop 1)
  | .NEW_LINE => some (ts.drop 1)
  | .EOF => some ts
  | _ => none

/-- lines 53-55 behind `DEFINE` (token `t`). -/
def define (lang : Nat) (t : PTok) (ts : List PTok) : Option (Node × List PTok) := do
  let (i, ts) ← expect .ID ts
  let (ps, ts) ← defineArgs lang ts
  let ts := (many .WS ts).2
  let (b, ts) := many .CODE ts
  let ts ← endOfDefine ts
  return (.define ⟨t.tok.line, t.tok.col, i.tok.text, ps,
    if b.isEmpty then none else some (rawText b, commentToks b)⟩, ts)

/-- A `value` (line 104) of the tokens collected so far. -/
def valueOf (l : List PTok) : List ArgTok := if l.isEmpty then [] else [.value (rawText l)]

/-- line 101: `value? (COMMA value? )* RP`: the children, the token `RP` and the rest. The lexer gives only tokens
`CODE`, `COMMA` and `RP` of the default channel inside of an argument list (EXPR_MODE), so `value: text+` has no
directives. -/
def argList : List PTok → List PTok → Option (List ArgTok × PTok × List PTok)
  | [], _ => none
  | t :: r, cur =>
    if t.tok.ty = .COMMA then (argList r []).map fun x => (valueOf cur ++ .comma :: x.1, x.2)
    else if t.tok.ty = .RP then some (valueOf cur ++ [.rp], t, r)
    else if copied t.tok.ty then argList r (cur ++ [t])
    else none

/-- verilogPreproc.cpp 281-287: the macro name at the start of the token. -/
def callName : Str → Str
  | [] => []
  | c :: s => c :: s.takeWhile (fun c => c.isAlphanum || c = '_')

/-- lines 99-102 at the token `t`; `input` is the whole text (verilogPreproc.cpp 313-319 reads it). -/
def macroCall (input : Str) (t : PTok) (ts : List PTok) : Option (Call × List PTok) :=
  match t.tok.ty with
  | .CALL => some (⟨t.tok.line, t.tok.col, t.tok.text, none⟩, ts)
  | .CALL_ARGS => do
    let (as, e, ts) ← argList ts []
    let n := callName t.tok.text
    let a := t.tok.start + n.length
    return (⟨t.tok.line, t.tok.col, n, some (as, (input.drop a).take (e.tok.stop - a))⟩, ts)
  | _ => none

/-- lines 175-187. Gives the tokens behind the expression. -/
def pragmaExpr : Nat → List PTok → Option (List PTok)
  | 0, _ => none
  | fuel + 1, ts =>
    match nextTy ts with
    | .ID => if nextTy (ts.drop 1) = .EQUAL then pragmaValue fuel (ts.drop 2) else some (ts.drop 1)
    | _ => pragmaValue fuel ts
where
  /-- line 182. -/
  pragmaValue : Nat → List PTok → Option (List PTok)
  | 0, _ => none
  | fuel + 1, ts =>
    match nextTy ts with
    | .NUM => some (ts.drop 1)
    | .STR => some (ts.drop 1)
    | .ID => some (ts.drop 1)
    | .LP => pragmaList fuel (ts.drop 1)
    | _ => none
  /-- line 183 behind `LP`. -/
  pragmaList : Nat → List PTok → Option (List PTok)
  | 0, _ => none
  | fuel + 1, ts => do
    let ts ← pragmaExpr fuel ts
    match nextTy ts with
    | .COMMA => pragmaList fuel (ts.drop 1)
    | .RP => return ts.drop 1
    | _ => none

/-- line 172: `( pragma_expression ( COMMA pragma_expression )* )?` -/
def pragmaExprs : Nat → List PTok → Option (List PTok)
  | 0, _ => none
  | fuel + 1, ts => do
    let ts ← pragmaExpr (3 * ts.length + 3) ts
    if nextTy ts = .COMMA then pragmaExprs fuel (ts.drop 1) else return ts

/-- lines 171-173 behind `PRAGMA`. -/
def pragma (ts : List PTok) : Option (List PTok) := do
  let (_, ts) ← expect .ID ts
  let ts ← if nextTy ts = .NEW_LINE ∨ nextTy ts = .EOF then some ts else pragmaExprs (ts.length + 1) ts
  match nextTy ts with
  | .NEW_LINE => return ts.drop 1
  | .EOF => return ts
  | _ => none

/-- The directives without groups of lines (lines 31-52, 109-173) at the token `t`. -/
def directive (lang : Nat) (input : Str) (t : PTok) (ts : List PTok) : Option (Node × List PTok) :=
  match t.tok.ty with
  | .DEFINE => define lang t ts
  | .CALL => (macroCall input t ts).map fun x => (.call x.1, x.2)
  | .CALL_ARGS => (macroCall input t ts).map fun x => (.call x.1, x.2)
  | .RESETALL => some (.nop, ts)
  | .CELLDEFINE => some (.nop, ts)
  | .ENDCELLDEFINE => some (.nop, ts)
  | .UNCONNECTED_DRIVE => some (.nop, ts)
  | .NOUNCONNECTED_DRIVE => some (.nop, ts)
  | .UNDEF => do
    let (i, ts) ← expect .ID ts
    match nextTy ts with
    | .WS => return (.undef i.tok.text, ts.drop 1)
    | .NEW_LINE => return (.undef i.tok.text, ts.drop 1)
    | .EOF => return (.undef i.tok.text, ts)
    | _ => none
  | .INCLUDE =>
    match ts with
    | [] => none
    | a :: ts =>
      if a.tok.ty = .STR then some (.incl t.tok.line t.tok.col (.str a.tok.text), ts)
      else if 5 ≤ lang then (macroCall input a ts).map fun x => (.incl t.tok.line t.tok.col (.call x.1), x.2)
      else none
  | .DEFAULT_NETTYPE => do
    let (_, ts) ← expect .NETTYPE ts
    return (.nop, ts)
  | .LINE => do
    let (n, ts) ← expect .NUM ts
    let (f, ts) ← expect .STR ts
    let (_, ts) ← expect .NUM ts
    return (.lineDir n.tok.text f.tok.text, ts)
  | .TIMESCALE => do
    let (_, ts) ← expect .TIME ts
    let (_, ts) ← expect .SLASH ts
    let (_, ts) ← expect .TIME ts
    return (.nop, ts)
  | .PROTECTED => do
    let (_, ts) ← expect .ENDPROTECTED (many .PROTECTED_LINE ts).2
    return (.nop, ts)
  | .UNDEFINEALL => if 6 ≤ lang then some (.undefineall, ts) else none
  | .BEGIN_KEYWORDS => if 4 ≤ lang then do
      let (_, ts) ← expect .STR ts
      return (.nop, ts)
    else none
  | .END_KEYWORDS => if 4 ≤ lang then some (.nop, ts) else none
  | .PRAGMA => if 4 ≤ lang then do
      let ts ← pragma ts
      return (.nop, ts)
    else none
  | _ => none

/-- Tokens a `text` can start with, besides the copied ones. -/
def startsDirective : TT → Bool
  | .DEFINE | .CALL | .CALL_ARGS | .RESETALL | .CELLDEFINE | .ENDCELLDEFINE | .UNCONNECTED_DRIVE
  | .NOUNCONNECTED_DRIVE | .UNDEF | .INCLUDE | .DEFAULT_NETTYPE | .LINE | .TIMESCALE | .PROTECTED | .UNDEFINEALL
  | .BEGIN_KEYWORDS | .END_KEYWORDS | .PRAGMA => true
  | _ => false

mutual
/-- `text*` (lines 17-29, 96-97): the texts and the first token which does not start one. -/
def textStar (lang : Nat) (input : Str) : Nat → List PTok → Option (Nodes × List PTok)
  | 0, _ => none
  | _ + 1, [] => some (.nil, [])
  | fuel + 1, t :: r =>
    if copied t.tok.ty then do
      let (ns, r) ← textStar lang input fuel r
      return (.cons (.code t.tok.line t.tok.text) ns, r)
    else if t.tok.ty = .IFDEF ∨ t.tok.ty = .IFNDEF then do
      let (b, r) ← branches lang input fuel r
      let (ns, r) ← textStar lang input fuel r
      return (.cons (.cond (t.tok.ty = .IFNDEF) b) ns, r)
    else if startsDirective t.tok.ty then do
      let (n, r) ← directive lang input t r
      let (ns, r) ← textStar lang input fuel r
      return (.cons n ns, r)
    else some (.nil, t :: r)
/-- lines 81-94 behind `IFDEF`, `IFNDEF` or `ELSIF`. -/
def branches (lang : Nat) (input : Str) : Nat → List PTok → Option (Branches × List PTok)
  | 0, _ => none
  | fuel + 1, ts => do
    let (i, ts) ← expect .ID ts
    let (g, r) ← textStar lang input fuel ts
    match nextTy r with
    | .ELSIF =>
      let (b, r) ← branches lang input fuel (r.drop 1)
      return (.elif i.tok.text (nextLine ts) g b, r)
    | .ELSE =>
      let ts' := r.drop 1
      let (g', r) ← textStar lang input fuel ts'
      let (_, r) ← expect .ENDIF r
      return (.elif i.tok.text (nextLine ts) g (.els (nextLine ts') g'), r)
    | .ENDIF => return (.elif i.tok.text (nextLine ts) g .endif, r.drop 1)
    | _ => none
end

/-- line 17: `file: text* EOF`. -/
def file (lang : Nat) (input : Str) (ts : List PTok) : Option Nodes := do
  let (ns, r) ← textStar lang input (ts.length + 1) ts
  if nextTy r = .EOF then return ns else none

/-- The tree of a text, `none` if the lexer or the parser reports an error. -/
def parseText (lang : Nat) (s : Str) : Option Nodes := do
  let ts ← lex s
  file lang s (group [] ts)

/-- The input stream, lexer and parser as used by `run_preproc` (verilogPreprocContainer.cpp 28-42). `bad`: the
decoding of the text by the input stream fails with a message; `errs`: the errors reported for a text. Both are
arbitrary. -/
def parse (lang : Nat) (bad : Str → Option Str) (errs : Str → SynErr × List SynErr) (s : Str) : ParseOut :=
  match bad s with
  | some m => .badInput m
  | none =>
    match parseText lang s with
    | some t => .tree t
    | none => .syntaxErrors (errs s).1 (errs s).2

end Verif.Pp
