import Verif.Preproc
/-!
# Verilog sources as IEEE 1800 structures them for the preprocessor

Written from IEEE 1800-2017 chapters 5 (lexical conventions) and 22 (compiler directives), without the grammar of
/repo: a source is a sequence of pieces of code, strings, comments, macro calls and directives, the conditional
directives are nested. `text` is what a user writes, `tree` is the structure with the positions of the parts in the text.
`ok` says which ways of writing are covered; what is not covered is listed at each definition.
-/
namespace Verif.Spec.Pp

/-- First character of an identifier (5.6). -/
def idFirst (c : Char) : Bool := c.isAlpha || c == '_'
/-- Further characters of an identifier (`$` is not covered). -/
def idNext (c : Char) : Bool := c.isAlphanum || c == '_'
/-- Blank or tab. -/
def blank (c : Char) : Bool := c == ' ' || c == '\t'
/-- White space (5.3), without form feed. -/
def white (c : Char) : Bool := c == ' ' || c == '\t' || c == '\r' || c == '\n'
/-- A macro name. -/
def isName : Str → Bool
  | [] => false
  | c :: s => idFirst c && s.all idNext

/-- The text does not start with such a character. -/
def noHead (p : Char → Bool) : Str → Bool
  | [] => true
  | c :: _ => !p c

/-- At least one blank. -/
def blanks (s : Str) : Bool := !s.isEmpty && s.all blank

/-- End of a line. -/
def isEol (s : Str) : Bool := s == ['\n'] || s == ['\r', '\n']

/-! ## parts of a source -/

/-- Pieces of code: a character, a slash with the character behind it, an escaped identifier (5.6.1) with the white
space that ends it. -/
inductive CodePiece
  | ch (c : Char)
  | slash (c : Char)
  | esc (s : Str) (w : Char)
deriving DecidableEq, Repr

def CodePiece.text : CodePiece → Str
  | .ch c => [c]
  | .slash c => ['/', c]
  | .esc s w => '\\' :: s ++ [w]

/-- The characters which start something else than code. -/
def special (c : Char) : Bool := c == '`' || c == '/' || c == '"' || c == '\\'

/-- Not covered: a slash directly in front of a string, an escaped identifier or a directive. -/
def CodePiece.ok : CodePiece → Bool
  | .ch c => !special c
  | .slash c => !special c && c != '*'
  | .esc s w => s.all (fun c => !white c) && white w

/-- Pieces of a string (5.9): a character or a backslash with the character behind it. -/
inductive StrPiece
  | ch (c : Char)
  | esc (c : Char)
deriving DecidableEq, Repr

def StrPiece.text : StrPiece → Str
  | .ch c => [c]
  | .esc c => ['\\', c]

/-- Not covered: a line of the string which ends with a backslash and CR LF. -/
def StrPiece.ok : StrPiece → Bool
  | .ch c => c != '"' && c != '\\' && c != '\r' && c != '\n'
  | .esc c => c != '\r'

/-- Text of a string with its quotes. -/
def strText (l : List StrPiece) : Str := '"' :: l.flatMap StrPiece.text ++ ['"']

/-- Not covered: a string whose last character is an escaped backslash. -/
def strOk (l : List StrPiece) : Bool := l.all StrPiece.ok && l.getLast? != some (.esc '\\')

/-- There is no end of a block comment in the text. -/
def noEnd : Str → Bool
  | '*' :: '/' :: _ => false
  | _ :: s => noEnd s
  | [] => true

/-- There is no start of a comment in the text. -/
def noComment : Str → Bool
  | '/' :: '/' :: _ => false
  | '/' :: '*' :: _ => false
  | _ :: s => noComment s
  | [] => true

/-- Pieces of a macro text (22.5.1): code, strings, and a newline with a backslash in front of it. -/
inductive BodyPiece
  | plain (s : Str)
  | str (l : List StrPiece)
  | esc
deriving DecidableEq, Repr

def BodyPiece.text : BodyPiece → Str
  | .plain s => s
  | .str l => strText l
  | .esc => ['\\', '\n']

/-- There is no start of a line comment in the text. -/
def noLine : Str → Bool
  | '/' :: '/' :: _ => false
  | _ :: s => noLine s
  | [] => true

/-- Not covered: line comments, other backslashes, `` `" ``, and a carriage return at the start of a piece. -/
def BodyPiece.ok : BodyPiece → Bool
  | .plain s => !s.isEmpty && s.all (fun c => c != '\\' && c != '\n' && c != '"') && noLine s &&
    s.getLast? != some '`' && s.head? != some '\r'
  | .str l => strOk l
  | .esc => true

/-- Code which belongs together is one piece. -/
def bodyAlt : List BodyPiece → Bool
  | .plain _ :: .plain _ :: _ => false
  | _ :: r => bodyAlt r
  | [] => true

def bodyText (l : List BodyPiece) : Str := l.flatMap BodyPiece.text

def bodyOk (l : List BodyPiece) : Bool := l.all BodyPiece.ok && bodyAlt l

/-- Pieces of an argument of a macro call or of a default value (22.5.1): code, strings, brackets. -/
inductive ArgPiece
  | plain (s : Str)
  | str (l : List StrPiece)
  | br (c : Char)
deriving DecidableEq, Repr

def ArgPiece.text : ArgPiece → Str
  | .plain s => s
  | .str l => strText l
  | .br c => [c]

/-- Characters which are not part of plain text in an argument. -/
def argSpecial (c : Char) : Bool :=
  c == '[' || c == ']' || c == '(' || c == ')' || c == '"' || c == '{' || c == '}' || c == ','

/-- Not covered: comments. -/
def ArgPiece.ok : ArgPiece → Bool
  | .plain s => !s.isEmpty && s.all (fun c => !argSpecial c) && noComment s
  | .str l => strOk l
  | .br c => argSpecial c && c != '"'

def argAlt : List ArgPiece → Bool
  | .plain _ :: .plain _ :: _ => false
  | _ :: r => argAlt r
  | [] => true

/-- Brackets are closed behind their opening, and a comma is inside of some bracket. Numbers of open `(`, `{`, `[`. -/
def balanced : Nat → Nat → Nat → List ArgPiece → Bool
  | p, b, q, [] => p == 0 && b == 0 && q == 0
  | p, b, q, .br '(' :: r => balanced (p + 1) b q r
  | p, b, q, .br ')' :: r => 0 < p && balanced (p - 1) b q r
  | p, b, q, .br '{' :: r => balanced p (b + 1) q r
  | p, b, q, .br '}' :: r => 0 < b && balanced p (b - 1) q r
  | p, b, q, .br '[' :: r => balanced p b (q + 1) r
  | p, b, q, .br ']' :: r => 0 < q && balanced p b (q - 1) r
  | p, b, q, .br ',' :: r => !(p == 0 && b == 0 && q == 0) && balanced p b q r
  | p, b, q, _ :: r => balanced p b q r

def argText (l : List ArgPiece) : Str := l.flatMap ArgPiece.text

def argOk (l : List ArgPiece) : Bool := l.all ArgPiece.ok && argAlt l && balanced 0 0 0 l

/-- A formal argument of a macro: name with white space around it, default value. -/
structure Formal where
  pre : Str
  name : Str
  post : Str
  dflt : Option (List ArgPiece)
deriving DecidableEq, Repr

def Formal.text (f : Formal) : Str :=
  f.pre ++ f.name ++ f.post ++ (match f.dflt with
    | none => []
    | some d => '=' :: argText d)

/-- Default values exist since IEEE 1800-2009. -/
def Formal.ok (lang : Nat) (f : Formal) : Bool :=
  f.pre.all blank && isName f.name && f.post.all blank && (match f.dflt with
    | none => true
    | some d => argOk d && 6 ≤ lang)

/-- Parts with commas between them. -/
def commas : List Str → Str
  | [] => []
  | [s] => s
  | s :: r => s ++ ',' :: commas r

/-- What is behind the name of a macro. -/
inductive DefTail
  | none
  | body (ws : Str) (b : List BodyPiece)
  | args (fs : List Formal) (ws : Str) (b : List BodyPiece)
deriving DecidableEq, Repr

def DefTail.text : DefTail → Str
  | .none => []
  | .body ws b => ws ++ bodyText b
  | .args fs ws b => '(' :: commas (fs.map Formal.text) ++ ')' :: (ws ++ bodyText b)

def DefTail.ok (lang : Nat) : DefTail → Bool
  | .none => true
  | .body ws b => blanks ws && bodyOk b && noHead blank (bodyText b)
  | .args fs ws b => fs.all (Formal.ok lang) && ws.all blank && bodyOk b && noHead blank (bodyText b)

/-- The macro text ends with code. -/
def endsCode (b : List BodyPiece) : Bool := match b.getLast? with
  | some (.plain _) => true
  | _ => false

/-- CR LF can follow. Not covered: CR LF behind code (the carriage return is a part of the code then). -/
def DefTail.crlf : DefTail → Bool
  | .none => true
  | .body _ b => !endsCode b
  | .args fs ws b => (ws == [] || (fs.getLast?.bind (·.dflt)).isNone || !b.isEmpty) &&
    !endsCode b

/-- The macro text does not end with an escaped line end. -/
def DefTail.closed : DefTail → Bool
  | .none => true
  | .body _ b => b.getLast? != some .esc
  | .args _ _ b => b.getLast? != some .esc

mutual
/-- Parts of a source. Strings in the constructors are the white space and line ends as written. -/
inductive Item
  | code (l : List CodePiece)
  | str (l : List StrPiece)
  | lineComment (s eol : Str)
  | comment (s : Str)
  | define (ws name : Str) (tail : DefTail) (eol : Str)
  | undef (ws name sep : Str)
  | undefineall (ws eol : Str)
  /-- `` `resetall ``, `` `celldefine ``, `` `endcelldefine ``, `` `nounconnected_drive `` -/
  | simple (kw ws eol : Str)
  | call (name : Str)
  | callArgs (name ws : Str) (args : List (List ArgPiece))
  | incl (ws : Str) (file : List StrPiece) (ws' eol : Str)
  | cond (neg : Bool) (ws name : Str) (g : Items) (r : Rest)
/-- A sequence of parts. -/
inductive Items
  | nil
  | cons (i : Item) (r : Items)
/-- What is behind the first group of a conditional. -/
inductive Rest
  | endif (sep : Str)
  | els (sep : Str) (g : Items) (sep' : Str)
  | elif (ws name : Str) (g : Items) (r : Rest)
end

mutual
/-- What the user writes. -/
def Item.text : Item → Str
  | .code l => l.flatMap CodePiece.text
  | .str l => strText l
  | .lineComment s eol => c! "//" ++ s ++ eol
  | .comment s => c! "/*" ++ s ++ c! "*/"
  | .define ws name tail eol => c! "`define" ++ ws ++ name ++ tail.text ++ eol
  | .undef ws name sep => c! "`undef" ++ ws ++ name ++ sep
  | .undefineall ws eol => c! "`undefineall" ++ ws ++ eol
  | .simple kw ws eol => '`' :: kw ++ ws ++ eol
  | .call name => '`' :: name
  | .callArgs name ws args => '`' :: name ++ ws ++ '(' :: commas (args.map argText) ++ [')']
  | .incl ws file ws' eol => c! "`include" ++ ws ++ strText file ++ ws' ++ eol
  | .cond neg ws name g r => (if neg then c! "`ifndef" else c! "`ifdef") ++ ws ++ name ++ g.text ++ r.text
def Items.text : Items → Str
  | .nil => []
  | .cons i r => i.text ++ r.text
def Rest.text : Rest → Str
  | .endif sep => c! "`endif" ++ sep
  | .els sep g sep' => c! "`else" ++ sep ++ g.text ++ c! "`endif" ++ sep'
  | .elif ws name g r => c! "`elsif" ++ ws ++ name ++ g.text ++ r.text
end

/-! ## which sources are covered -/

/-- Names of directives: not names of macros (22.5.1). -/
def keywords : List Str := [c! "include", c! "define", c! "ifndef", c! "ifdef", c! "elsif", c! "else", c! "endif",
  c! "undef", c! "begin_keywords", c! "end_keywords", c! "pragma", c! "undefineall", c! "resetall", c! "celldefine",
  c! "endcelldefine", c! "timescale", c! "default_nettype", c! "line", c! "unconnected_drive", c! "nounconnected_drive",
  c! "protected"]

/-- The directives of `simple`. -/
def simples : List Str := [c! "resetall", c! "celldefine", c! "endcelldefine", c! "nounconnected_drive"]

/-- `s` is the end of the line, or nothing at the end of the source; `rest` is what follows. -/
def eolOk (s rest : Str) : Bool := isEol s || (s == [] && rest == [])

/-- Blanks with something else behind them. Not covered: an opening parenthesis. -/
def gapOk (s rest : Str) : Bool := blanks s && noHead blank rest && noHead (· == '(') rest

/-- Behind `` `endif ``: the end of the line, blanks, or nothing at the end of the source. -/
def sepOk (s rest : Str) : Bool := isEol s || gapOk s rest || (s == [] && rest == [])

/-- Behind a macro call without arguments: not a character of an identifier, not an opening parenthesis. -/
def callEnd (rest : Str) : Bool := noHead idNext rest && noHead (· == '(') (rest.dropWhile blank)

/-- Code is followed by something else than code. -/
def Items.noCode : Items → Bool
  | .cons (.code _) _ => false
  | _ => true

mutual
/-- `rest` is the text behind the part. -/
def Item.ok (lang : Nat) : Item → (rest : Str) → Bool
  | .code l, _ => !l.isEmpty && l.all CodePiece.ok
  | .str l, _ => strOk l
  | .lineComment s eol, rest => s.all (fun c => c != '\r' && c != '\n') && eolOk eol rest
  | .comment s, _ => noEnd s
  | .define ws name tail eol, rest =>
    blanks ws && isName name && tail.ok lang && (eol == ['\n'] || (eol == ['\r', '\n'] && tail.crlf) ||
      (eol == [] && rest == [] && tail.closed))
  | .undef ws name sep, rest => blanks ws && isName name && (isEol sep || sep == [' '] || sep == ['\t'] || (sep == [] && rest == []))
  | .undefineall ws eol, _ => 6 ≤ lang && ws.all blank && isEol eol
  | .simple kw ws eol, _ => simples.contains kw && ws.all blank && isEol eol
  | .call name, rest => isName name && !keywords.contains name && callEnd rest
  | .callArgs name ws args, _ =>
    isName name && !keywords.contains name && ws.all blank && !args.isEmpty && args.all argOk
  | .incl ws file ws' eol, rest => blanks ws && strOk file && ws'.all blank && eolOk eol rest
  | .cond _ ws name g r, rest => blanks ws && isName name && noHead idNext (g.text ++ r.text) &&
    g.ok lang (r.text ++ rest) && r.ok lang rest
def Items.ok (lang : Nat) : Items → (rest : Str) → Bool
  | .nil, _ => true
  | .cons i r, rest => i.ok lang (r.text ++ rest) && r.ok lang rest && (match i with
    | .code _ => r.noCode
    | _ => true)
def Rest.ok (lang : Nat) : Rest → (rest : Str) → Bool
  | .endif sep, rest => sepOk sep rest
  | .els sep g sep', rest => (isEol sep || gapOk sep (g.text ++ c! "`endif")) &&
    g.ok lang (c! "`endif" ++ sep' ++ rest) && sepOk sep' rest
  | .elif ws name g r, rest => blanks ws && isName name && noHead idNext (g.text ++ r.text) &&
    g.ok lang (r.text ++ rest) && r.ok lang rest
end

/-! ## the structure of a source -/

/-- Position (line from 1, column from 0) behind a text. -/
def after : Nat × Nat → Str → Nat × Nat
  | p, [] => p
  | (l, k), c :: s => after (if c = '\n' then (l + 1, 0) else (l, k + 1)) s

/-- The pieces of a macro text between the first and the last one which is not a line end. -/
def core (l : List BodyPiece) : List BodyPiece :=
  (((l.dropWhile (· == .esc)).reverse).dropWhile (· == .esc)).reverse

/-- The macro text as written, and its escaped line ends. -/
def bodyNode (l : List BodyPiece) : Option (Str × List CommentTok) :=
  if core l = [] then none
  else some (bodyText (core l), ((core l).filter (· == .esc)).map fun _ => ⟨true, '\\', ['\n']⟩)

def Formal.param (f : Formal) : Param := ⟨f.name, f.dflt.isSome, (f.dflt.map argText).getD []⟩

/-- Parameters; `()` is no parameter list. -/
def DefTail.params : DefTail → Option (List Param)
  | .args (f :: fs) _ _ => some ((f :: fs).map Formal.param)
  | _ => Option.none

/-- Blanks behind a parameter list which ends with a default value are a part of the macro text. -/
def DefTail.node : DefTail → Option (Str × List CommentTok)
  | .none => Option.none
  | .body _ b => bodyNode b
  | .args fs ws b => if ws = [] ∨ (fs.getLast?.bind (·.dflt)).isNone then bodyNode b else bodyNode (.plain ws :: b)

/-- The arguments of a call as the list of values and commas. -/
def argToks : List (List ArgPiece) → List ArgTok
  | [] => [.rp]
  | [a] => (if argText a = [] then [] else [.value (argText a)]) ++ [.rp]
  | a :: r => (if argText a = [] then [] else [.value (argText a)]) ++ .comma :: argToks r

mutual
/-- The structure of a part which starts at the position `p`. -/
def Item.node (p : Nat × Nat) : Item → Node
  | .code l => .code p.1 (Item.text (.code l))
  | .str l => .code p.1 (Item.text (.str l))
  | .lineComment s eol => .code p.1 (Item.text (.lineComment s eol))
  | .comment s => .code p.1 (Item.text (.comment s))
  | .define _ name tail _ => .define ⟨p.1, p.2 + 1, name, tail.params, tail.node⟩
  | .undef _ name _ => .undef name
  | .undefineall _ _ => .undefineall
  | .simple _ _ _ => .nop
  | .call name => .call ⟨p.1, p.2 + 1, name, none⟩
  | .callArgs name ws args =>
    .call ⟨p.1, p.2 + 1, name, some (argToks args, ws ++ '(' :: commas (args.map argText) ++ [')'])⟩
  | .incl _ file _ _ => .incl p.1 (p.2 + 1) (.str (strText file))
  | .cond neg ws name g r =>
    let q := after p ((if neg then c! "`ifndef" else c! "`ifdef") ++ ws ++ name)
    .cond neg (.elif name q.1 (g.tree q) (r.tree (after q g.text)))
def Items.tree (p : Nat × Nat) : Items → Nodes
  | .nil => .nil
  | .cons i r => .cons (i.node p) (r.tree (after p i.text))
def Rest.tree (p : Nat × Nat) : Rest → Branches
  | .endif _ => .endif
  | .els sep g _ =>
    let q := after p (c! "`else" ++ sep)
    .els q.1 (g.tree q)
  | .elif ws name g r =>
    let q := after p (c! "`elsif" ++ ws ++ name)
    .elif name q.1 (g.tree q) (r.tree (after q g.text))
end

end Verif.Spec.Pp
