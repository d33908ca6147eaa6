import Verif.Antlr
/-!
# Model of the lexer of the Verilog preprocessor (grammars/verilogPreprocLexer.g4)

Every rule of the grammar is one entry of `rules`, in the order of the file, with its regular expression and its
actions. Texts are lists of characters as they are in the rest of the model (bytes of the UTF-8 text): every class of
the grammar has only ASCII characters or is the complement of ASCII characters, so the characters above 127 of one code
point are consumed together in each rule with a loop; in the one-character rule `DN_CODE` the rest of the code point
starts the next CODE token of the same macro text. Only the column numbers of error messages differ.

Actions of rules which are used inside of another rule (`WS` in `RP: ')' WS*`) are not executed (`LexerATNSimulator`
ignores actions of invoked rules).
-/
namespace Verif.Pp
open Verif.Antlr Verif.Antlr.Re

/-- Token types the parser distinguishes. -/
inductive TT
  | STR | LINE_COMMENT | COMMENT | CODE | INCLUDE | DEFINE | IFNDEF | IFDEF | ELSIF | ELSE | ENDIF | UNDEF
  | BEGIN_KEYWORDS | END_KEYWORDS | PRAGMA | UNDEFINEALL | RESETALL | CELLDEFINE | ENDCELLDEFINE | TIMESCALE
  | DEFAULT_NETTYPE | LINE | UNCONNECTED_DRIVE | NOUNCONNECTED_DRIVE | PROTECTED | CALL_ARGS | CALL
  | LINE_ESCAPE | LP | RP | COMMA | EQUAL | WS | ID | NEW_LINE | NUM | NETTYPE | TIME | SLASH | ENDPROTECTED
  | PROTECTED_LINE | EOF
deriving DecidableEq, Repr

/-- Channels (line 5). -/
inductive Chan
  | default | lineEscape | lineComment | comment
deriving DecidableEq, Repr

/-- Lexer modes. -/
inductive Mode
  | default | directive | define | expr | defineBody | macroArgs | ifdef | undef | nettype | line | timing | keywords
  | incl | pragma | prot
deriving DecidableEq, Repr

/-- lines 9-51 (`expression_parsing_meta_info`). -/
structure ExprMeta where
  parenthesis : Nat
  braces : Nat
  square : Nat
  reenter : Bool
  exitParent : Bool
  next : Option Mode
deriving DecidableEq, Repr

/-- Mode, mode stack (top first) and the members of the lexer (lines 53-56; `define_in_def_val` is never set to true). -/
structure St where
  mode : Mode
  stack : List Mode
  lpSeen : Bool
  callLpSeen : Bool
  meta' : ExprMeta
deriving DecidableEq, Repr

/-- lines 38-43, 44-50. -/
def metaReset (exitParent reenter : Bool) (next : Option Mode) : ExprMeta := ⟨0, 0, 0, reenter, exitParent, next⟩

/-- State of a new lexer. -/
def St.init : St := ⟨.default, [], false, false, metaReset false false none⟩

/-- What the actions of a rule do to the token and the lexer; `fail` is an exception (`popMode` with an empty stack). -/
structure Out where
  st : St
  ty : TT
  skip : Bool
  chan : Chan
  text : Str
  fail : Bool
deriving DecidableEq, Repr

/-- One action or command. -/
abbrev Act := Out → Out

/-- `Lexer::pushMode`. -/
def push (m : Mode) : Act := fun o => { o with st := { o.st with mode := m, stack := o.st.mode :: o.st.stack } }

/-- `Lexer::popMode`. -/
def pop : Act := fun o => match o.st.stack with
  | [] => { o with fail := true }
  | m :: r => { o with st := { o.st with mode := m, stack := r } }

/-- `skip` -/
def skip : Act := fun o => { o with skip := true }
/-- `type(t)` -/
def ty (t : TT) : Act := fun o => { o with ty := t }
/-- `channel(c)` -/
def chan (c : Chan) : Act := fun o => { o with chan := c }

/-- `setText`; an empty text is the same as none (`CommonToken::getText` gives the matched text then). -/
def setText (t : Str) : Act := fun o => if t = [] then o else { o with text := t }

/-- Change of the members. -/
def upd (f : St → St) : Act := fun o => { o with st := f o.st }
/-- Change of `expr_p_meta`. -/
def updMeta (f : ExprMeta → ExprMeta) : Act := upd fun s => { s with meta' := f s.meta' }

/-- A rule: its type, expression and actions in order. -/
structure Rule where
  type : TT
  re : Re
  acts : List Act

/-! ## fragments (lines 68-76) and the rules which are used in other rules -/

/-- `CRLF : '\r'? '\n'` -/
def CRLF : Re := seq (opt (set ['\r'])) (set ['\n'])
/-- `LETTER: [a-zA-Z]` -/
def LETTER : Re := alt (rng 'a' 'z') (rng 'A' 'Z')
/-- `ID_FIRST: LETTER | '_'` -/
def ID_FIRST : Re := alt LETTER (set ['_'])
/-- `F_DIGIT: [0-9]` -/
def F_DIGIT : Re := rng '0' '9'
/-- `F_ID : ID_FIRST (ID_FIRST | F_DIGIT)*` -/
def F_ID : Re := seq ID_FIRST (star (alt ID_FIRST F_DIGIT))
/-- `F_WS: [ \t]` -/
def F_WS : Re := set [' ', '\t']
/-- line 190: `WS: F_WS+` -/
def WSr : Re := plus F_WS
/-- `ANY_WS: WS | CRLF` -/
def ANY_WS : Re := alt WSr CRLF
/-- `WS_ENDING_NEW_LINE: (WS* CRLF) | EOF` -/
def WS_ENDING_NEW_LINE : Re := alt (seq (star WSr) CRLF) eof
/-- `F_LINE_ESCAPE: '\\' CRLF` -/
def F_LINE_ESCAPE : Re := seq (set ['\\']) CRLF

/-- line 79: `'"' ( ('\\' ('"' | CRLF)) | ~["\r\n] )* '"'` -/
def STRr : Re := seq (set ['"']) (seq (star (alt (seq (set ['\\']) (alt (set ['"']) CRLF)) (non ['"', '\r', '\n']))) (set ['"']))
/-- line 80: `'//' ~[\r\n]* ( CRLF | EOF )` -/
def LINE_COMMENTr : Re := seq (lit ['/', '/']) (seq (star (non ['\r', '\n'])) (alt CRLF eof))
/-- line 81: `'/*' .*? '*/'`: the text up to the first `*/`. -/
def COMMENTr : Re :=
  seq (lit ['/', '*']) (seq (star (alt (non ['*']) (seq (plus (set ['*'])) (non ['*', '/'])))) (seq (plus (set ['*'])) (set ['/'])))

/-- lines 82-88: the alternatives of one step of CODE. -/
def codeStep : Re := alts [
  non ['`', '/', '"', '\\'],
  seq (set ['/']) (non ['/', '*', '`']),
  seq (plus (lit ['`', '\\', '`'])) (set ['"']),
  lit ['`', '"'],
  lit ['`', '`'],
  seq (set ['\\']) (seq (star (non [' ', '\t', '\r', '\n'])) (alt (set [' ', '\t', '\r', '\n']) eof))]

/-- lines 58-64 (`cut_off_line_comment`). -/
def cutOffLineComment : Str → Str
  | '/' :: '/' :: _ => []
  | c :: s => c :: cutOffLineComment s
  | [] => []

/-! ## the rules -/

/-- lines 79-99. CODE is two entries: the rule without and with its optional last part (which has the action). -/
def defaultRules : List Rule := [
  ⟨.STR, STRr, []⟩,
  ⟨.LINE_COMMENT, LINE_COMMENTr, []⟩,
  ⟨.COMMENT, COMMENTr, []⟩,
  ⟨.CODE, plus codeStep, []⟩,
  ⟨.CODE, seq codeStep (seq (star codeStep) (lit ['/', '`'])),
    [fun o => setText o.text.dropLast o, push .directive]⟩,
  ⟨.EOF, set ['`'], [push .directive, skip]⟩]

/-- A directive `kw` with what follows. -/
def kw (s : Str) (r : Re) : Re := seq (lit s) r

/-- lines 102-140. -/
def directiveRules : List Rule := [
  ⟨.STR, STRr, []⟩,
  ⟨.LINE_COMMENT, LINE_COMMENTr, [pop, chan .lineComment]⟩,
  ⟨.COMMENT, COMMENTr, [chan .comment]⟩,
  ⟨.INCLUDE, kw (c! "include") (plus F_WS), [pop, push .incl]⟩,
  ⟨.DEFINE, kw (c! "define") (seqs [plus F_WS, star F_LINE_ESCAPE,
      opt (seqs [alt LINE_COMMENTr COMMENTr, star F_WS, star F_LINE_ESCAPE]), star (alt F_WS F_LINE_ESCAPE)]),
    [upd fun s => { s with lpSeen := false }, pop, push .define]⟩,
  ⟨.IFNDEF, kw (c! "ifndef") (plus F_WS), [pop, push .ifdef]⟩,
  ⟨.IFDEF, kw (c! "ifdef") (plus F_WS), [pop, push .ifdef]⟩,
  ⟨.ELSIF, kw (c! "elsif") (plus F_WS), [pop, push .ifdef]⟩,
  ⟨.ELSE, kw (c! "else") ANY_WS, [pop]⟩,
  ⟨.ENDIF, kw (c! "endif") (alt ANY_WS eof), [pop]⟩,
  ⟨.UNDEF, kw (c! "undef") (plus F_WS), [pop, push .undef]⟩,
  ⟨.BEGIN_KEYWORDS, kw (c! "begin_keywords") F_WS, [pop, push .keywords]⟩,
  ⟨.END_KEYWORDS, kw (c! "end_keywords") CRLF, [pop]⟩,
  ⟨.PRAGMA, kw (c! "pragma") F_WS, [pop, push .pragma]⟩,
  ⟨.UNDEFINEALL, kw (c! "undefineall") WS_ENDING_NEW_LINE, [pop]⟩,
  ⟨.RESETALL, kw (c! "resetall") WS_ENDING_NEW_LINE, [pop]⟩,
  ⟨.CELLDEFINE, kw (c! "celldefine") WS_ENDING_NEW_LINE, [pop]⟩,
  ⟨.ENDCELLDEFINE, kw (c! "endcelldefine") WS_ENDING_NEW_LINE, [pop]⟩,
  ⟨.TIMESCALE, kw (c! "timescale") (plus F_WS), [pop, push .timing]⟩,
  ⟨.DEFAULT_NETTYPE, kw (c! "default_nettype") (plus F_WS), [pop, push .nettype]⟩,
  ⟨.LINE, kw (c! "line") (plus F_WS), [pop, push .line]⟩,
  ⟨.UNCONNECTED_DRIVE, kw (c! "unconnected_drive") (seqs [plus ANY_WS, alt (lit (c! "pull0")) (lit (c! "pull1")),
    WS_ENDING_NEW_LINE]), [pop]⟩,
  ⟨.NOUNCONNECTED_DRIVE, kw (c! "nounconnected_drive") WS_ENDING_NEW_LINE, [pop]⟩,
  ⟨.PROTECTED, kw (c! "protected") ANY_WS, [pop, push .prot]⟩,
  ⟨.CALL_ARGS, seqs [F_ID, star F_WS, set ['(']],
    [upd fun s => { s with callLpSeen := true }, pop, push .macroArgs, push .expr, updMeta fun _ => metaReset true true none]⟩,
  ⟨.CALL, F_ID, [pop]⟩]

/-- line 200: one step of DN_CODE. The loop `+?` at the end of the rule stops after one step. -/
def dnStep : Re := alts [lit ['`', '"'], non ['\\', '\r', '\n', '"'], seq (plus (set ['\\'])) (non ['\r', '\n'])]

/-- `if (define_param_LP_seen) a else b` -/
def ifLp (a b : List Act) : Act := fun o => (if o.st.lpSeen then a else b).foldl (fun o f => f o) o

/-- lines 144-204. A second `(` in the parameter list (line 163: `assert`) is not accepted by the parser anyway. -/
def defineRules : List Rule := [
  ⟨.LINE_COMMENT, LINE_COMMENTr, [ifLp [skip] [pop]]⟩,
  ⟨.COMMENT, COMMENTr, [skip]⟩,
  ⟨.LINE_ESCAPE, F_LINE_ESCAPE, [chan .lineEscape]⟩,
  ⟨.LP, set ['('], [upd fun s => { s with lpSeen := true }]⟩,
  ⟨.RP, seq (set [')']) (star WSr), [ifLp [pop, push .defineBody] [ty .CODE, pop, push .defineBody]]⟩,
  ⟨.COMMA, set [','], []⟩,
  ⟨.EQUAL, set ['='], [updMeta fun _ => metaReset true false (some .defineBody), push .expr]⟩,
  ⟨.NEW_LINE, CRLF, [ifLp [skip] [pop]]⟩,
  ⟨.WS, WSr, [ifLp [skip] [pop, push .defineBody]]⟩,
  ⟨.ID, F_ID, []⟩,
  ⟨.CODE, dnStep, [pop, push .defineBody]⟩]

/-- lines 26-28. -/
def ExprMeta.noBrace (m : ExprMeta) : Bool := m.parenthesis == 0 && m.braces == 0 && m.square == 0

/-- lines 214-231. -/
def exprRp : Act := fun o =>
  if 0 < o.st.meta'.parenthesis then ty .CODE (updMeta (fun m => { m with parenthesis := m.parenthesis - 1 }) o)
  else
    let o := pop (ty .RP o)
    let o := if o.st.meta'.exitParent then pop o else o
    match o.st.meta'.next with
    | some m => push m o
    | none => o

/-- lines 242-253. -/
def exprComma : Act := fun o =>
  if o.st.meta'.noBrace then
    let o := ty .COMMA o
    if o.st.meta'.reenter then o else pop o
  else ty .CODE o

/-- lines 208-254. -/
def exprRules : List Rule := [
  ⟨.LINE_COMMENT, LINE_COMMENTr, [chan .lineComment]⟩,
  ⟨.CODE, COMMENTr, []⟩,
  ⟨.CODE, plus (non ['[', ']', '(', ')', '"', '{', '}', ',']), []⟩,
  ⟨.CODE, set ['('], [updMeta fun m => { m with parenthesis := m.parenthesis + 1 }]⟩,
  ⟨.CODE, set [')'], [exprRp]⟩,
  ⟨.CODE, set ['{'], [updMeta fun m => { m with braces := m.braces + 1 }]⟩,
  ⟨.CODE, set ['}'], [updMeta fun m => { m with braces := m.braces - 1 }]⟩,
  ⟨.CODE, set ['['], [updMeta fun m => { m with square := m.square + 1 }]⟩,
  ⟨.CODE, set [']'], [updMeta fun m => { m with square := m.square - 1 }]⟩,
  ⟨.CODE, set [','], [exprComma]⟩,
  ⟨.CODE, STRr, []⟩]

/-- lines 261-266: one step of DB_CODE. -/
def dbStep : Re := alts [
  seq (plus (set ['\\'])) (non ['\n']),
  lit ['`', '"'],
  seq (plus (lit ['`', '\\', '`'])) (set ['"']),
  non ['\\', '\n', '"']]

/-- lines 257-269. -/
def defineBodyRules : List Rule := [
  ⟨.LINE_ESCAPE, F_LINE_ESCAPE, [chan .lineEscape]⟩,
  ⟨.CODE, STRr, []⟩,
  ⟨.LINE_COMMENT, LINE_COMMENTr, [chan .lineComment]⟩,
  ⟨.CODE, plus dbStep, [fun o => setText (cutOffLineComment o.text) o]⟩,
  ⟨.NEW_LINE, CRLF, [pop]⟩]

/-- lines 273-303. The mode is never the current one when a token is read: EXPR_MODE is pushed on top of it and leaves
both at once. The `assert(false)` of line 296 is a failure. -/
def macroArgsRules : List Rule := [
  ⟨.COMMA, set [','], [fun o => if o.st.callLpSeen then updMeta (fun _ => metaReset true true none) (push .expr o)
    else pop (ty .CODE o)]⟩,
  ⟨.RP, set [')'], [fun o => if o.st.callLpSeen then upd (fun s => { s with callLpSeen := false }) (pop o)
    else { o with fail := true }]⟩,
  ⟨.CODE, alt STRr (non [',', '(', ')', '"']), [pop]⟩]

/-- lines 305-307. -/
def ifdefRules : List Rule := [⟨.NUM, plus F_DIGIT, []⟩, ⟨.ID, F_ID, [pop]⟩]

/-- lines 310-313. -/
def undefRules : List Rule := [⟨.ID, F_ID, []⟩, ⟨.WS, F_WS, [pop]⟩, ⟨.NEW_LINE, CRLF, [pop]⟩]

/-- lines 315-327. The token types of the net types are one type here (the parser accepts all of them). -/
def nettypeRules : List Rule :=
  [c! "wire", c! "tri", c! "tri0", c! "tri1", c! "wand", c! "triand", c! "wor", c! "trior", c! "trireg", c! "uwire",
    c! "none"].map (fun s => ⟨.NETTYPE, lit s, []⟩) ++ [⟨.NEW_LINE, CRLF, [pop]⟩]

/-- lines 330-336. -/
def lineRules : List Rule := [
  ⟨.NUM, plus F_DIGIT, []⟩,
  ⟨.STR, STRr, []⟩,
  ⟨.EOF, F_WS, [skip]⟩,
  ⟨.NEW_LINE, CRLF, [pop]⟩,
  ⟨.LINE_COMMENT, LINE_COMMENTr, [chan .lineComment, pop]⟩,
  ⟨.CODE, COMMENTr, []⟩]

/-- lines 338-346. -/
def timingRules : List Rule := [
  ⟨.TIME, seqs [plus F_DIGIT, star (set [' ']), opt (set ['m', 'u', 'n', 'p', 'f']), set ['s']], []⟩,
  ⟨.SLASH, set ['/'], []⟩,
  ⟨.EOF, WSr, [skip]⟩,
  ⟨.NEW_LINE, CRLF, [pop]⟩,
  ⟨.LINE_COMMENT, LINE_COMMENTr, [chan .lineComment, pop]⟩,
  ⟨.CODE, COMMENTr, []⟩]

/-- lines 348-349. -/
def keywordsRules : List Rule := [⟨.STR, STRr, [pop]⟩]

/-- lines 360-372. -/
def inclRules : List Rule := [
  ⟨.STR, STRr, []⟩,
  ⟨.STR, seqs [set ['<'], star (non ['\\', '>']), set ['>']], []⟩,
  ⟨.LINE_COMMENT, LINE_COMMENTr, [pop, chan .lineComment]⟩,
  ⟨.NEW_LINE, CRLF, [pop, skip]⟩,
  ⟨.EOF, set ['`'], [pop, push .directive, skip]⟩,
  ⟨.EOF, WSr, [skip]⟩]

/-- lines 375-384. -/
def pragmaRules : List Rule := [
  ⟨.EOF, plus WSr, [skip]⟩,
  ⟨.NUM, plus F_DIGIT, []⟩,
  ⟨.ID, F_ID, []⟩,
  ⟨.STR, STRr, []⟩,
  ⟨.COMMA, set [','], []⟩,
  ⟨.EQUAL, set ['='], []⟩,
  ⟨.LP, set ['('], []⟩,
  ⟨.RP, set [')'], []⟩,
  ⟨.NEW_LINE, CRLF, [pop]⟩]

/-- lines 387-390. -/
def protRules : List Rule := [
  ⟨.EOF, plus ANY_WS, [skip]⟩,
  ⟨.ENDPROTECTED, lit (c! "`endprotected"), [pop]⟩,
  ⟨.PROTECTED_LINE, plus (non [' ', '\t', '\n', '\r']), []⟩]

/-- The rules of a mode in the order of the grammar. -/
def rules : Mode → List Rule
  | .default => defaultRules
  | .directive => directiveRules
  | .define => defineRules
  | .expr => exprRules
  | .defineBody => defineBodyRules
  | .macroArgs => macroArgsRules
  | .ifdef => ifdefRules
  | .undef => undefRules
  | .nettype => nettypeRules
  | .line => lineRules
  | .timing => timingRules
  | .keywords => keywordsRules
  | .incl => inclRules
  | .pragma => pragmaRules
  | .prot => protRules

/-! ## the token stream -/

/-- A token: text (as changed by the actions), position, index of the first character and behind the last one. -/
structure Tok where
  ty : TT
  chan : Chan
  text : Str
  line : Nat
  col : Nat
  start : Nat
  stop : Nat
deriving DecidableEq, Repr

/-- Run the actions of a rule on the matched text. -/
def Rule.exec (r : Rule) (st : St) (text : Str) : Out :=
  r.acts.foldl (fun o f => f o) ⟨st, r.type, false, .default, text, false⟩

/-- `Lexer::nextToken` until the end of the input. `none`: at some place no rule matches (the lexer reports it to the
error listener) or an action failed. Fuel: the number of characters is enough, every match has a character. -/
def lexFrom : Nat → St → Nat × Nat → Nat → Str → Option (List Tok)
  | _, _, _, _, [] => some []
  | 0, _, _, _, _ => none
  | fuel + 1, st, pos, idx, s =>
    match pick Rule.re (rules st.mode) (syms s) with
    | none => none
    | some (r, n) =>
      let t := s.take n
      let o := r.exec st t
      if o.fail then none
      else
        match lexFrom fuel o.st (advance pos t) (idx + t.length) (s.drop n) with
        | none => none
        | some ts =>
          if o.skip then some ts
          else some (⟨o.ty, o.chan, o.text, pos.1, pos.2, idx, idx + t.length⟩ :: ts)

/-- All tokens of a text in front of EOF, `none` if there is a lexical error. -/
def lex (s : Str) : Option (List Tok) := lexFrom s.length St.init (1, 0) 0 s

end Verif.Pp
