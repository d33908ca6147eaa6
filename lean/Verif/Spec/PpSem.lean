import Verif.Spec.PpNesting
import Verif.Spec.Macro
import Verif.Spec.Text
/-!
# What preprocessing of a Verilog source means (IEEE 1800-2017 chapter 22)

A relation between a source (`Items`), the macros defined in front of it, the pieces of its output and the macros defined
behind it. No positions, no output buffer, no macro database: macros are a partial function of names.
-/
namespace Verif.Spec.Pp

/-- A defined macro: formal arguments (`none`: without an argument list) and text; or a predefined one. `fixed`: it
survives `` `undef `` and `` `undefineall `` (macros given from outside). -/
inductive Entry
  | user (params : Option (List Param)) (body : Str) (fixed : Bool)
  | predefined (fixed : Bool)
deriving DecidableEq, Repr

def Entry.fixed : Entry → Bool
  | .user _ _ f => f
  | .predefined f => f

/-- The macros which are defined. `undefs`: a defined macro was removed by `` `undef ``. -/
structure World where
  macros : Str → Option Entry
  undefs : Bool

/-- The macros at the start: those given from outside, and since IEEE 1800-2009 `__LINE__` and `__FILE__`. -/
def World.start (lang : Nat) (given : Str → Option Entry) : World where
  macros n := ((given n).filter Entry.fixed).or
    (if 6 ≤ lang ∧ (n = c! "__LINE__" ∨ n = c! "__FILE__") then some (.predefined false) else none)
  undefs := false

def World.set (w : World) (name : Str) (e : Option Entry) : World :=
  { w with macros := fun n => if n = name then e else w.macros n }

/-- The files: `dirs` are the include directories of the user, `read` gives the text of a file. -/
structure Files where
  dirs : List Str
  isFile : Str → Bool
  read : Str → Option Str
  join : Str → Str → Str
  parent : Str → Str

/-- Where a source is: number of open macro texts, number of open files, and the directory of the file if it is not one
of the include directories. -/
structure Place where
  calls : Nat
  files : Nat
  here : Option Str

/-- In a macro text. -/
def Place.macro (pl : Place) : Place := { pl with calls := pl.calls + 1 }

/-- In an included file. -/
def Place.include (pl : Place) (fs : Files) (path : Str) : Place :=
  ⟨pl.calls, pl.files + 1, if fs.dirs.contains (fs.parent path) then none else some (fs.parent path)⟩

/-- The file `` `include "name" `` means: the first one that exists in the include directories, then in the directory of
the including file. -/
def Includes (fs : Files) (pl : Place) (name path : Str) : Prop :=
  ∃ a d b, fs.dirs ++ pl.here.toList = a ++ d :: b ∧ path = fs.join d name ∧ fs.isFile path = true ∧
    ∀ e ∈ a, fs.isFile (fs.join e name) = false

/-- The text of a macro: the logical line (22.5.1) without line ends at its start and white space at its end. -/
def bodyOf (l : List BodyPiece) : Str := ((logical (core l)).reverse.dropWhile white).reverse

/-- Blanks behind a default value at the end of the formal arguments are kept. -/
def DefTail.macroText : DefTail → Str
  | .none => []
  | .body _ b => bodyOf b
  | .args fs ws b => bodyOf (if ws = [] ∨ (fs.getLast?.bind (·.dflt)).isNone then b else .plain ws :: b)

/-- Without white space at both ends. -/
def actual (a : List ArgPiece) : Str := strip (argText a)

/-- The actual arguments of a call; `()` is no argument. -/
def actuals (args : List (List ArgPiece)) : List Str :=
  if args.map argText = [[]] then [] else args.map actual

/-- SystemVerilog: `` `` `` joins what is around it, `` `\` `` is a backslash (22.5.1). -/
def Pasted (lang : Nat) (r r' : Str) : Prop :=
  if 5 ≤ lang then ∃ q, Replaced (c! "``") [] r q ∧ Replaced (c! "`\\`") (c! "\\") q r' else r' = r

/-- Only the end, or one `else` group. -/
def Rest.noElif : Rest → Bool
  | .elif _ _ _ _ => false
  | _ => true

/-- What is to be preprocessed: a sequence of parts, a part, the groups behind the first one of a conditional, or the text
of a macro behind the substitution of its arguments. -/
inductive Todo
  | items (is : Items)
  | item (i : Item)
  | rest (r : Rest)
  | text (r : Str)

/-- `Sem fs lang pl w x c w'`: at the place `pl` with the macros `w` the output of `x` is the sequence of pieces `c`, and `w'`
are the macros behind it. Not covered (no rule): redefinition of a macro with another text, calls of predefined macros, `` `elsif ``
behind `` `ifndef ``, includes inside of macro texts, back-ticks in the output of a macro text, formal arguments in front of an
opening bracket, errors. -/
inductive Sem (fs : Files) (lang : Nat) : Place → World → Todo → List Str → World → Prop
  | nil {pl w} : Sem fs lang pl w (.items .nil) [] w
  | cons {pl w i r c w' c' w''} : Sem fs lang pl w (.item i) c w' → Sem fs lang pl w' (.items r) c' w'' →
      Sem fs lang pl w (.items (.cons i r)) (c ++ c') w''
  /-- code, strings and comments are copied -/
  | code {pl w l} : Sem fs lang pl w (.item (.code l)) [(Item.code l).text] w
  | str {pl w l} : Sem fs lang pl w (.item (.str l)) [strText l] w
  | lineComment {pl w s eol} : Sem fs lang pl w (.item (.lineComment s eol)) [(Item.lineComment s eol).text] w
  | comment {pl w s} : Sem fs lang pl w (.item (.comment s)) [(Item.comment s).text] w
  /-- a new macro; the formal arguments are different, strings in the text are closed -/
  | define {pl w ws name tail eol} : w.macros name = none → tail.ok lang = true → tail.oneLineStrings = true →
      ((tail.params.getD []).map Param.name).Nodup → endsInString false none tail.macroText = false →
      Sem fs lang pl w (.item (.define ws name tail eol)) [] (w.set name (some (.user tail.params tail.macroText false)))
  /-- the same definition again -/
  | redefine {pl w ws name tail eol f} : w.macros name = some (.user tail.params tail.macroText f) → tail.ok lang = true →
      tail.oneLineStrings = true → Sem fs lang pl w (.item (.define ws name tail eol)) [] w
  | undef {pl w ws name sep e} : w.macros name = some e → e.fixed = false →
      Sem fs lang pl w (.item (.undef ws name sep)) [] { w.set name none with undefs := true }
  | undefFixed {pl w ws name sep e} : w.macros name = some e → e.fixed = true → Sem fs lang pl w (.item (.undef ws name sep)) [] w
  | undefNone {pl w ws name sep} : w.macros name = none → Sem fs lang pl w (.item (.undef ws name sep)) [] w
  | undefineall {pl w ws eol} : Sem fs lang pl w (.item (.undefineall ws eol)) []
      { w with macros := fun n => (w.macros n).filter Entry.fixed }
  | simple {pl w kw ws eol} : Sem fs lang pl w (.item (.simple kw ws eol)) [] w
  /-- a call is replaced by the macro text, which is preprocessed again -/
  | call {pl w name body f r c w'} : w.macros name = some (.user none body f) → Pasted lang body r →
      Sem fs lang pl w (.text r) c w' → Sem fs lang pl w (.item (.call name)) c w'
  /-- parentheses behind a macro without arguments are not a part of the call -/
  | callText {pl w name ws args body f r c w'} : w.macros name = some (.user none body f) →
      Pasted lang (body ++ (ws ++ '(' :: commas (args.map argText) ++ [')'])) r →
      Sem fs lang pl w (.text r) c w' → Sem fs lang pl w (.item (.callArgs name ws args)) c w'
  | callArgs {pl w name ws args ps body f vals e r c w'} : w.macros name = some (.user (some ps) body f) →
      bindArgs ps (actuals args) = some vals → expand stopStd ((ps.map Param.name).zip vals) body = e →
      expand stopCode ((ps.map Param.name).zip vals) body = e → Pasted lang e r →
      Sem fs lang pl w (.text r) c w' → Sem fs lang pl w (.item (.callArgs name ws args)) c w'
  | incl {pl w ws file ws' eol path js c w'} : pl.calls = 0 → pl.files ≤ 100 →
      Includes fs pl (file.flatMap StrPiece.text) path → fs.read path = some js.text → js.ok lang [] = true →
      Sem fs lang (pl.include fs path) w (.items js) c w' → Sem fs lang pl w (.item (.incl ws file ws' eol)) c w'
  /-- the first group is selected -/
  | condTrue {pl w neg ws name g r c w'} : ((w.macros name).isSome ↔ neg = false) → Sem fs lang pl w (.items g) c w' →
      Sem fs lang pl w (.item (.cond neg ws name g r)) c w'
  | condFalse {pl w neg ws name g r c w'} : ¬ ((w.macros name).isSome ↔ neg = false) → (neg = true → r.noElif = true) →
      Sem fs lang pl w (.rest r) c w' → Sem fs lang pl w (.item (.cond neg ws name g r)) c w'
  | endif {pl w sep} : Sem fs lang pl w (.rest (.endif sep)) [] w
  | els {pl w sep g sep' c w'} : Sem fs lang pl w (.items g) c w' → Sem fs lang pl w (.rest (.els sep g sep')) c w'
  | elifTrue {pl w ws name g r c w'} : (w.macros name).isSome → Sem fs lang pl w (.items g) c w' →
      Sem fs lang pl w (.rest (.elif ws name g r)) c w'
  | elifFalse {pl w ws name g r c w'} : ¬ (w.macros name).isSome → Sem fs lang pl w (.rest r) c w' →
      Sem fs lang pl w (.rest (.elif ws name g r)) c w'
  /-- a macro text without directives and calls -/
  | plain {pl w r} : '`' ∉ r → Sem fs lang pl w (.text r) [r] w
  /-- a macro text with directives or calls, up to a nesting of 128 -/
  | again {pl w r js c w'} : '`' ∈ r → pl.calls < 128 → js.text = r → js.ok lang [] = true →
      Sem fs lang pl.macro w (.items js) c w' → (∀ x ∈ c, '`' ∉ x) → Sem fs lang pl w (.text r) c w'

/-- The pieces in this order, with nothing but additional line ends in front of, between and behind them. -/
inductive Spaced : List Str → Str → Prop
  | nil (k : Nat) : Spaced [] (List.replicate k '\n')
  | cons (k : Nat) {x : Str} {c : List Str} {t : Str} : Spaced c t → Spaced (x :: c) (List.replicate k '\n' ++ (x ++ t))

end Verif.Spec.Pp
