import Verif.Preproc
/-!
# Model of the convertor (src/hdlConvertor.cpp, include/hdlConvertor/parserContainer.h, src/syntaxErrorLogger.cpp)
and of the Python wrapper (hdlConvertor/_hdlConvertor.pyx).

The ANTLR parsers for VHDL and SystemVerilog and the visitors that build the AST are parameters (`Hdl`): every theorem
holds for all of them.
-/
namespace Verif

/-! ## Error listener -/

/-- syntaxErrorLogger.h 31-48: errors, prefix, pointer to the line map (`none`: nullptr). -/
structure Logger where
  errors : List SynErr
  pfx : Str
  map : Option (List MapItem)

/-- syntaxErrorLogger.cpp 18-20. -/
def Logger.new : Logger := ⟨[], [], none⟩

/-- What ANTLR reports: line, column, message. -/
structure RawErr where
  line : Nat
  col : Nat
  msg : Str
deriving DecidableEq, Repr

/-- syntaxErrorLogger.cpp 35-55 (`syntaxError`); `name` is the name of the input stream. The assertion of line 43 is not
modelled. -/
def Logger.syntaxError (lg : Logger) (name : Str) (e : RawErr) : Logger :=
  let err : SynErr := match lg.map with
    | some m => match m.getLast? with
      | some lm => ⟨lm.file, (lm.lineOverride + (BitVec.ofNat 64 e.line - lm.line)).toNat, e.col, e.msg⟩
      | none => ⟨name, e.line, e.col, e.msg⟩
    | none => ⟨name, e.line, e.col, e.msg⟩
  { lg with errors := lg.errors ++ [err] }

/-- syntaxErrorLogger.cpp 22-33. -/
def Logger.checkErrors (lg : Logger) : Except Exc Unit :=
  if lg.errors.length > 0 then .error (.parse (formatErrors lg.pfx lg.errors)) else .ok ()

/-! ## Parser containers -/

/-- Result of the construction of the input stream (may throw), lexer and parser: the reported errors in order and the
tree, which exists in any case (ANTLR recovers). -/
inductive HdlParse (T : Type)
  | badInput (msg : Str)
  | done (errs : List RawErr) (tree : T)

/-- Parser and AST builder; `T`: syntax trees, `C`: `HdlContext`. -/
structure Hdl (T C : Type) where
  parse : Str → HdlParse T
  /-- `visitDesign_file` / `visitSource_text` with the flag `hierarchyOnly`; what is already in the context stays there if an
  exception is thrown -/
  convert : Bool → T → C → Except Exc Unit × C

/-- The members of `HdlConvertor` (hdlConvertor.h): macro database and context. `ub`: see `PState`. -/
structure Api (C : Type) where
  db : MacroDB
  ctx : C
  ub : Bool
deriving DecidableEq, Repr

/-- parserContainer.h 87-102 (`_parse`) with `parseFn` (hdlConvertor.cpp 27-32, 78-84). The logger of a container is used for
the preprocessor and the parser. -/
def parseText {T C : Type} (hdl : Hdl T C) (lg : Logger) (name text : Str) (hier : Bool) (c : C) : Except Exc Unit × C :=
  match hdl.parse text with
  | .badInput m => (.error (.runtime m), c)
  | .done errs t =>
    let lg := errs.foldl (fun lg e => lg.syntaxError name e) lg
    match lg.checkErrors with
    | .error e => (.error e, c)
    | .ok () =>
      match hdl.convert hier t c with
      | (.error e, c) => (.error e, c)
      | (.ok (), c) => ({ lg with pfx := [] }.checkErrors, c)

/-- hdlConvertor.cpp 99-115, one round of the loop (`stat` is `fileExists`); parserContainer.h 64-78 for VHDL,
hdlConvertor.cpp 50-62 for Verilog. `env.lang` is the language. -/
def parseFile {T C : Type} (env : Env) (hdl : Hdl T C) (incdirs : List Str) (enc : Str) (hier : Bool) (file : Str) (a : Api C) :
    Except Exc Unit × Api C :=
  if env.fileExists file = false then (.error (.parse (file ++ c! " does not exist.")), a)
  else if env.lang = 0 then
    match (env.readFile file).mapError Exc.runtime with
    | .error e => (.error e, a)
    | .ok bytes =>
      match toUtf8 bytes enc with
      | .error e => (.error e, a)
      | .ok txt =>
        let r := parseText hdl Logger.new file txt hier a.ctx
        (r.1, { a with ctx := r.2 })
  else if env.lang ≤ 8 then
    let p := verilogPp env a.db incdirs file enc
    match p.1 with
    | .error e => (.error e, { a with db := p.2.db, ub := a.ub || p.2.ub })
    | .ok txt =>
      let r := parseText hdl Logger.new file txt hier a.ctx
      (r.1, ⟨p.2.db, r.2, a.ub || p.2.ub⟩)
  else (.error (.runtime (c! "Unsupported language.")), a)

/-- hdlConvertor.cpp 91-116. -/
def parseFiles {T C : Type} (env : Env) (hdl : Hdl T C) (incdirs : List Str) (enc : Str) (hier : Bool) :
    List Str → Api C → Except Exc Unit × Api C
  | [], a => (.ok (), a)
  | f :: fs, a =>
    match parseFile env hdl incdirs enc hier f a with
    | (.error e, a) => (.error e, a)
    | (.ok (), a) => parseFiles env hdl incdirs enc hier fs a

/-- hdlConvertor.cpp 118-134, parserContainer.h 80-85, hdlConvertor.cpp 64-76. -/
def parseString {T C : Type} (env : Env) (hdl : Hdl T C) (incdirs : List Str) (enc : Str) (hier : Bool) (text : Str) (a : Api C) :
    Except Exc Unit × Api C :=
  if env.lang = 0 then
    match toUtf8 text enc with
    | .error e => (.error e, a)
    | .ok txt =>
      let r := parseText hdl Logger.new (c! "<string>") txt hier a.ctx
      (r.1, { a with ctx := r.2 })
  else if env.lang ≤ 8 then
    let p := verilogPpStr env a.db incdirs text enc
    match p.1 with
    | .error e => (.error e, { a with db := p.2.db, ub := a.ub || p.2.ub })
    | .ok txt =>
      let r := parseText hdl Logger.new (c! "<string>") txt hier a.ctx
      (r.1, ⟨p.2.db, r.2, a.ub || p.2.ub⟩)
  else (.error (.runtime (c! "Unsupported language.")), a)

/-! ## Python wrapper -/

/-- python_ver_independent_str.pyx 11-12: `s.encode("utf-8")`, of one character (a Lean `Char` is a Unicode scalar value). -/
def encodeChar (c : Char) : Str :=
  let v := c.toNat
  if v < 0x80 then [c]
  else if v < 0x800 then [Char.ofNat (0xC0 + v / 64), Char.ofNat (0x80 + v % 64)]
  else if v < 0x10000 then [Char.ofNat (0xE0 + v / 4096), Char.ofNat (0x80 + v / 64 % 64), Char.ofNat (0x80 + v % 64)]
  else [Char.ofNat (0xF0 + v / 262144), Char.ofNat (0x80 + v / 4096 % 64), Char.ofNat (0x80 + v / 64 % 64),
    Char.ofNat (0x80 + v % 64)]

/-- `str_encode`. -/
def strEncode (s : Str) : Str := s.flatMap encodeChar

/-- _hdlConvertor.pyx 136-185 (`parse`) for the HDL languages: the returned context is the context of the convertor
(converted to Python), or a new empty one if no file was given. Raised exceptions are all of class ParseException there. -/
def pyParse {T C : Type} (env : Env) (hdl : Hdl T C) (empty : C) (incdirs : List Str) (enc : Str) (hier : Bool) (files : List Str)
    (a : Api C) : Except Exc C × Api C :=
  if files = [] then (.ok empty, a)
  else
    let r := parseFiles env hdl (incdirs.map strEncode) (strEncode enc) hier (files.map strEncode) a
    (r.1.map (fun _ => r.2.ctx), r.2)

/-- _hdlConvertor.pyx 187-223 (`parse_str`). -/
def pyParseStr {T C : Type} (env : Env) (hdl : Hdl T C) (empty : C) (incdirs : List Str) (enc : Str) (hier : Bool) (text : Str)
    (a : Api C) : Except Exc C × Api C :=
  if text = [] then (.ok empty, a)
  else
    let r := parseString env hdl (incdirs.map strEncode) (strEncode enc) hier (strEncode text) a
    (r.1.map (fun _ => r.2.ctx), r.2)

end Verif
