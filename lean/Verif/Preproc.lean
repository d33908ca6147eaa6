import Verif.StrUtils
import Verif.OutBuffer
import Verif.MacroDB
import Verif.Encoding
/-!
# Model of the preprocessor (src/verilogPreproc/verilogPreproc.cpp, verilogPreprocContainer.cpp)

The lexer and the parser are a parameter here: `Env.parse` is an arbitrary function from the text to either
syntax errors or a tree (their model is in `PpLexer.lean` and `PpParser.lean`, see `Props/PpText.lean`). The tree has exactly
the information the visitors read. The file system is `Env` too.
-/
namespace Verif

/-! ## The tree -/

/-- A child of `macro_call` behind the first one (verilogPreprocParser.g4, `macro_call`): a terminal or a `value`.
`value` carries the source text of the value. -/
inductive ArgTok
  | comma
  | rp
  | value (raw : Str)
deriving DecidableEq, Repr

/-- `macro_call`: start position (line is 1-based, as ANTLR gives it), macro name (verilogPreproc.cpp 274-289), and for
a call with an argument list the children and the source text between the name and the end of the call (lines 315-318). -/
structure Call where
  line : Nat
  col : Nat
  name : Str
  args : Option (List ArgTok × Str)
deriving DecidableEq, Repr

/-- A token on one of the channels CH_LINE_ESCAPE / CH_LINE_COMMENT inside of a macro text. Token texts are not empty. -/
structure CommentTok where
  isEscape : Bool
  hd : Char
  tl : Str
deriving DecidableEq, Repr

/-- `define`: position, name, parameters (`none`: the rule `define_args` did not match, also for `` `define M() ``),
source text of `replacement` with its hidden tokens (`none`: no replacement). -/
structure DefineNode where
  line : Nat
  col : Nat
  name : Str
  params : Option (List Param)
  body : Option (Str × List CommentTok)
deriving DecidableEq, Repr

/-- Argument of `include`. -/
inductive IncArg
  | str (quoted : Str)
  | call (c : Call)
deriving DecidableEq, Repr

mutual
/-- `text` (verilogPreprocParser.g4). -/
inductive Node
  /-- a token that is copied; `line` is 1-based -/
  | code (line : Nat) (s : Str)
  | define (d : DefineNode)
  /-- `` `ifdef `` (`neg = false`) / `` `ifndef `` (`neg = true`) -/
  | cond (neg : Bool) (b : Branches)
  | call (c : Call)
  | undef (name : Str)
  | undefineall
  | incl (line col : Nat) (a : IncArg)
  /-- `` `line num file level ``; `file` is the token text with its quotes -/
  | lineDir (num : Str) (file : Str)
  /-- resetall, celldefine, endcelldefine, timescale, default_nettype, unconnected_drive, nounconnected_drive,
  begin_keywords, end_keywords, pragma, protected -/
  | nop
/-- `text*` -/
inductive Nodes
  | nil
  | cons (n : Node) (r : Nodes)
/-- Rest of a conditional: branches with their condition and the 1-based line of the first token of the group. -/
inductive Branches
  | endif
  | els (line : Nat) (g : Nodes)
  | elif (cond : Str) (line : Nat) (g : Nodes) (r : Branches)
end

/-! ## State and environment -/

/-- One syntax error as collected by `SyntaxErrorLogger` (syntaxErrorLogger.h 11-23). -/
structure SynErr where
  file : Str
  line : Nat
  col : Nat
  msg : Str
deriving DecidableEq, Repr

/-- Result of the constructor of the ANTLR input stream (decoding of the text, may throw a `std::exception`), lexer and
parser. -/
inductive ParseOut
  | badInput (msg : Str)
  | syntaxErrors (e : SynErr) (r : List SynErr)
  | tree (t : Nodes)

/-- What is outside of the modelled code. -/
structure Env where
  /-- `Language` as a number (language.h) -/
  lang : Nat
  parse : Str → ParseOut
  /-- `std::filesystem::exists` -/
  fileExists : Str → Bool
  /-- opening and reading of a file; failures are `std::ios_base::failure` with a message -/
  readFile : Str → Except Str Str
  /-- `operator/` of `std::filesystem::path` -/
  join : Str → Str → Str
  /-- `parent_path` -/
  parent : Str → Str

/-- The members of `VerilogPreprocContainer` that change during a run (verilogPreprocContainer.h 20-36).
`ub` is set when the code executes something undefined but the model goes on with the intended effect. -/
structure PState where
  db : MacroDB
  incdirs : List Str
  incStack : List Str
  callStack : List Str
  ub : Bool
deriving DecidableEq, Repr

/-- Code that can throw and changes the state; the state survives an exception. -/
def M (α : Type) := PState → Except Exc α × PState

@[simp] def M.pure {α : Type} (a : α) : M α := fun s => (.ok a, s)
def M.bind {α β : Type} (m : M α) (f : α → M β) : M β := fun s =>
  match m s with
  | (.ok a, s') => f a s'
  | (.error e, s') => (.error e, s')
instance : Monad M where
  pure := M.pure
  bind := M.bind
def M.throw {α : Type} (e : Exc) : M α := fun s => (.error e, s)
def M.get : M PState := fun s => (.ok s, s)
def M.modify (f : PState → PState) : M Unit := fun s => (.ok (), f s)
/-- Code that does not touch the state. -/
def M.lift {α : Type} (x : Except Exc α) : M α := fun s => (x, s)

/-- Members of `VerilogPreproc` (verilogPreproc.h 34-41) and the name of the input. -/
structure Ctx where
  src : Str
  added : Bool
  enc : Str
deriving DecidableEq, Repr

/-- verilogPreproc.h 47: default of `include_depth_limit` (never passed explicitly). -/
def includeDepthLimit : Nat := 100
/-- verilogPreprocContainer.h 27. -/
def maxCallStack : Nat := 128

/-! ## Visitors -/

/-- Decimal digits (`std::to_string`). -/
def dec (n : Nat) : Str := Nat.toDigits 10 n

/-- verilogPreproc.cpp 471-486. -/
def inputError (src : Str) (line col : Nat) (msg : Str) : Exc :=
  .parse (src ++ c! ":" ++ dec line ++ c! ":" ++ dec col ++ c! ":Error: " ++ msg)

/-- `throw_input_caused_error` as used in a `catch (const ParseException &e)`; other exceptions pass. -/
def rethrow (src : Str) (line col : Nat) : Exc → Exc
  | .parse m => inputError src line col m
  | e => e

/-- 1-based ANTLR line to the 0-based `size_t` argument of `set_input_line`. -/
def line0 (line : Nat) : W := BitVec.ofNat 64 line - 1

/-- verilogPreproc.cpp 492-508. -/
def removeComment : List CommentTok → Str → Except Exc Str
  | [], s => .ok s
  | t :: r, s => do
    let s ← replaceSubstring s (t.hd :: t.tl) (if t.isEscape then ['\n'] else [])
    removeComment r s

/-- verilogPreproc.cpp 208-216: the text of the macro. -/
def defineBody (d : DefineNode) : Except Exc Str :=
  match d.body with
  | none => .ok []
  | some (raw, toks) => do
    let s ← removeComment toks raw
    return rtrim s wsChars

/-- verilogPreproc.cpp 191-230. -/
def visitDefine (ctx : Ctx) (d : DefineNode) : M Unit := do
  let body ← M.lift (defineBody d)
  match MacroDef.new d.name d.params.isSome (d.params.getD []) body with
  | .ok m => M.modify fun s => { s with db := s.db.insert d.name ⟨.user m, false⟩ }
  | .error e => M.throw (rethrow ctx.src d.line d.col e)

/-- verilogPreproc.cpp 232-258: the loop over the children. -/
def parseMacroArgs : List ArgTok → (expected lastComma : Bool) → List Str → List Str
  | [], _, _, acc => acc
  | .comma :: r, expected, _, acc => parseMacroArgs r true true (if expected then acc ++ [[]] else acc)
  | .rp :: r, expected, lastComma, acc =>
    parseMacroArgs r true false (if expected && lastComma then acc ++ [[]] else acc)
  | .value raw :: r, _, _, acc => parseMacroArgs r false false (acc ++ [trim raw wsChars])

/-- a_macro_def.h: `requires_args` of the three classes. -/
def MacroObj.requiresArgs : MacroObj → Bool
  | .user m => m.hasParams
  | .line => false
  | .file => false

/-- `replace` of the three classes (macro_def_verilog.cpp 156-220, default_macro_defs.cpp 12-50). -/
def MacroObj.replace (o : MacroObj) (args : List Str) (spec : Bool) (out : OutBuf) (line : Nat) : Except Exc Str :=
  match o with
  | .user m => m.replace args spec
  | .line =>
    if spec then .error (.parse (c! "Macro __line__ does not expect any arguments or braces."))
    else .ok (dec (out.begin_ + BitVec.ofNat 64 line).toNat)
  | .file =>
    if spec then .error (.parse (c! "Macro __file__ does not expect any arguments or braces."))
    else match out.map.getLast? with
      | none => .error .ub
      | some i => .ok (c! "\"" ++ i.file ++ c! "\"")

/-- str_utils.h 20-34. -/
def vectorToString (v : List Str) : Str := c! "[" ++ (c! ",").intercalate v ++ c! "]"

/-- The recursive call: `run_preproc` on a text. -/
abbrev Rec := Ctx → Str → OutBuf → M OutBuf

/-- verilogPreprocContainer.cpp 96-112. -/
def runStr (rec : Rec) (text enc : Str) (out : OutBuf) : M OutBuf := do
  let s ← M.get
  let name := s.incStack.getLast?.getD (c! "<string>")
  let out ← M.lift (out.setFileLine name 0)
  let txt ← M.lift (toUtf8 text enc)
  rec ⟨name, false, enc⟩ txt out

/-- verilogPreprocContainer.cpp 83-94 with 69-78 inlined; `add`: the directory of the file is not among the include
directories yet. -/
def runFileIn (env : Env) (rec : Rec) (path enc : Str) (add : Bool) (out : OutBuf) : M OutBuf := do
  M.modify fun s => { s with
    incdirs := if add then s.incdirs ++ [env.parent path] else s.incdirs
    incStack := s.incStack ++ [path] }
  let bytes ← M.lift ((env.readFile path).mapError .runtime)
  let txt ← M.lift (toUtf8 bytes enc)
  let out ← M.lift (out.setFileLine path 0)
  let out ← rec ⟨path, add, enc⟩ txt out
  M.modify fun s => { s with
    incStack := s.incStack.dropLast
    incdirs := if add then s.incdirs.dropLast else s.incdirs }
  pure out

/-- verilogPreprocContainer.cpp 80-94. -/
def runFile (env : Env) (rec : Rec) (path enc : Str) (out : OutBuf) : M OutBuf := do
  let s ← M.get
  runFileIn env rec path enc (!(s.incdirs.contains (env.parent path))) out

/-- verilogPreproc.cpp 307-325: text of the macro before it is scanned again. -/
def firstReplacement (o : MacroObj) (c : Call) (out : OutBuf) : Except Exc Str := do
  let args : List Str := match c.args with
    | some (toks, _) => if o.requiresArgs then parseMacroArgs toks true false [] else []
    | none => []
  let spec := o.requiresArgs && c.args.isSome
  let r ← o.replace args spec out c.line
  return match c.args with
    | some (_, src) => if o.requiresArgs then r else r ++ src
    | none => r

/-- verilogPreproc.cpp 322-325: token pasting, SystemVerilog only (`lang ≥ SV2005`). -/
def paste (lang : Nat) (r : Str) : Except Exc Str :=
  if 5 ≤ lang then do
    let r ← replaceSubstring r (c! "``") []
    replaceSubstring r (c! "`\\`") (c! "\\")
  else .ok r

/-- verilogPreproc.cpp 327-344: a text with a back-tick is preprocessed again. -/
def rescan (rec : Rec) (ctx : Ctx) (c : Call) (begin_ : W) (r : Str) : M Str :=
  if r.contains '`' then do
    let s ← M.get
    if maxCallStack ≤ s.callStack.length then
      M.throw (inputError ctx.src c.line c.col
        (c! "Macro call stack overflow " ++ vectorToString s.callStack ++ c! "."))
    else do
      M.modify fun s => { s with callStack := s.callStack ++ [c.name] }
      let nested ← runStr rec r (c! "utf-8") (OutBuf.new (begin_ + line0 c.line))
      M.modify fun s => { s with callStack := s.callStack.dropLast }
      pure nested.text
  else pure r

/-- verilogPreproc.cpp 345-349: `` `" `` and `` `\`" ``, SystemVerilog only. -/
def unescape (lang : Nat) (r : Str) : Except Exc Str :=
  if 5 ≤ lang then unescapeStringDblquotes r else .ok r

/-- verilogPreproc.cpp 264-357 without the final output (lines 350-355). -/
def expandCall (env : Env) (rec : Rec) (ctx : Ctx) (c : Call) (out : OutBuf) : M Str := do
  let s ← M.get
  match s.db.find c.name with
  | none => M.throw (inputError ctx.src c.line c.col (c.name ++ c! " is not defined"))
  | some item =>
    match firstReplacement item.obj c out with
    | .error e => M.throw (rethrow ctx.src c.line c.col e)
    | .ok r => do
      let r ← M.lift (paste env.lang r)
      let r ← rescan rec ctx c out.begin_ r
      M.lift (unescape env.lang r)

/-- verilogPreproc.cpp 425-426: `substr(1, size() - 2)` (the length wraps for a text of one character). -/
def stripQuotes (s : Str) : Except Exc Str :=
  if s.length = 0 then .error .outOfRange
  else if s.length = 1 then .ok []
  else .ok ((s.drop 1).take (s.length - 2))

/-- verilogPreproc.cpp 423-435: the search loop. -/
def searchInc (env : Env) (quoted : Str) : List Str → Except Exc (Option Str)
  | [] => .ok none
  | d :: r => do
    let n ← stripQuotes quoted
    let f := env.join d n
    if env.fileExists f then return some f else searchInc env quoted r

/-- verilogPreproc.cpp 454-466: the nested run of an include. -/
def runInclude (env : Env) (rec : Rec) (ctx : Ctx) (file : Str) (out : OutBuf) : M OutBuf := do
  let s ← M.get
  if ctx.added then
    match s.incdirs.getLast? with
    | none => M.throw .ub
    | some my => do
      M.modify fun s => { s with incdirs := s.incdirs.dropLast }
      let o ← runFile env rec file ctx.enc (OutBuf.new 0)
      M.modify fun s => { s with incdirs := s.incdirs ++ [my] }
      return out.append o
  else do
    let o ← runFile env rec file ctx.enc (OutBuf.new 0)
    return out.append o

/-- verilogPreproc.cpp 408-421: the text naming the file. -/
def incText (env : Env) (rec : Rec) (ctx : Ctx) (out : OutBuf) : IncArg → M Str
  | .str q => pure q
  | .call c => expandCall env rec ctx c out

/-- verilogPreproc.cpp 405-469. -/
def visitInclude (env : Env) (rec : Rec) (ctx : Ctx) (line col : Nat) (a : IncArg) (out : OutBuf) : M OutBuf := do
  let quoted ← incText env rec ctx out a
  let s ← M.get
  let f ← M.lift (searchInc env quoted s.incdirs)
  match f with
  | none => M.throw (inputError ctx.src line col (quoted ++ c! " was not found in include directories\n"))
  | some file =>
    if includeDepthLimit < s.incStack.length then
      M.throw (inputError ctx.src line col (c! "Nested include limit reach\n" ++
        s.incStack.flatMap (fun f => c! "    " ++ f ++ c! "\n")))
    else runInclude env rec ctx file out

/-- verilogPreproc.cpp 125-127: `istringstream >> size_t` on a text of digits; a value that does not fit gives the
maximum. -/
def numValue (s : Str) : W :=
  let v := s.foldl (fun a c => 10 * a + (c.toNat - '0'.toNat)) 0
  if v < 2 ^ 64 then BitVec.ofNat 64 v else BitVec.allOnes 64

/-- verilogPreproc.cpp 132-143: the iterator is used after `erase`: undefined, the flag is set. -/
def visitUndef (name : Str) : M Unit := M.modify fun s =>
  match s.db.find name with
  | some item => if item.persistent then s else { s with db := s.db.erase name, ub := true }
  | none => s

mutual
/-- verilogPreproc.cpp 44-69 and the directive visitors. -/
def visitNode (env : Env) (rec : Rec) (ctx : Ctx) : Node → OutBuf → M OutBuf
  | .code line s, out => do
    let o ← M.lift (out.setLine (line0 line))
    return o.put s
  | .define d, out => do
    visitDefine ctx d
    return out
  | .cond neg b, out => visitBranches env rec ctx neg b out
  | .call c, out => do
    let r ← expandCall env rec ctx c out
    let o ← M.lift (out.setLine (line0 c.line))
    return o.put r
  | .undef name, out => do
    visitUndef name
    return out
  | .undefineall, out => do
    M.modify fun s => { s with db := s.db.deleteNonPersistent }
    return out
  | .incl line col a, out => visitInclude env rec ctx line col a out
  | .lineDir num file, out => M.lift (out.setFileLine file (numValue num))
  | .nop, out => return out
/-- Visiting the children in order. -/
def visitNodes (env : Env) (rec : Rec) (ctx : Ctx) : Nodes → OutBuf → M OutBuf
  | .nil, out => return out
  | .cons n r, out => do
    let o ← visitNode env rec ctx n out
    visitNodes env rec ctx r o
/-- verilogPreproc.cpp 362-390 (`processIfdef`). -/
def visitBranches (env : Env) (rec : Rec) (ctx : Ctx) (neg : Bool) : Branches → OutBuf → M OutBuf
  | .endif, out => return out
  | .els line g, out => do
    let o ← M.lift (out.setLine (line0 line))
    visitNodes env rec ctx g o
  | .elif cond line g r, out => do
    let s ← M.get
    if (s.db.find cond).isSome == !neg then do
      let o ← M.lift (out.setLine (line0 line))
      visitNodes env rec ctx g o
    else visitBranches env rec ctx neg r out
end

/-- syntaxErrorLogger.cpp 22-33 (`check_errors`): the message; the column is cast to `uint32_t`. -/
def formatErrors (pfx : Str) (es : List SynErr) : Str :=
  c! "\n" ++ es.flatMap (fun e => e.file ++ c! ":" ++ dec e.line ++ c! ":" ++ dec (e.col % 2 ^ 32) ++ c! ":" ++ pfx ++
    c! "SyntaxError:" ++ e.msg ++ c! "\n")

/-- verilogPreprocContainer.cpp 28-67 and the constructor verilogPreproc.cpp 20-39. Fuel bounds the nesting of runs. -/
def run (env : Env) : Nat → Rec
  | 0, _, _, _ => M.throw .fuel
  | fuel + 1, ctx, text, out =>
    match env.parse text with
    | .badInput m => M.throw (.runtime m)
    | .syntaxErrors e r => M.throw (.parse (formatErrors (c! "Preproc") (e :: r)))
    | .tree t =>
      if 1 ≤ env.lang ∧ env.lang ≤ 8 then visitNodes env (run env fuel) ctx t out
      else M.throw (.runtime (c! "vPreprocessor: unsupported language"))

/-- Nesting bound: shown sufficient in `C01_terminates`. -/
def FUEL : Nat := includeDepthLimit + 1 + maxCallStack + 1

/-- verilogPreprocContainer.cpp 18-26 on a fresh container. -/
def initState (env : Env) (db : MacroDB) (incdirs : List Str) : PState :=
  ⟨db.deleteNonPersistent.addDefaults env.lang, incdirs, [], [], false⟩

/-- hdlConvertor.cpp 147-156 (`verilog_pp_str`): the result and the macro database afterwards. -/
def verilogPpStr (env : Env) (db : MacroDB) (incdirs : List Str) (text enc : Str) : Except Exc Str × PState :=
  (do let o ← runStr (run env FUEL) text enc (OutBuf.new 0)
      return o.text : M Str) (initState env db incdirs)

/-- hdlConvertor.cpp 136-145 (`verilog_pp`). -/
def verilogPp (env : Env) (db : MacroDB) (incdirs : List Str) (path enc : Str) : Except Exc Str × PState :=
  (do let o ← runFile env (run env FUEL) path enc (OutBuf.new 0)
      return o.text : M Str) (initState env db incdirs)

end Verif
