import Verif.PpNestLemmas
import Verif.Props.Preproc2
/-!
# Properties of the preprocessor on texts: C02, C14, C95, C96, C97, C98, C99, C100

Here the preprocessor runs with the model of its lexer and parser (`Pp.parse`) in place of an arbitrary function. The
decoding of the input stream (`bad`) and the error messages (`errs`) stay arbitrary.
-/
namespace Verif
open Verif.Pp Verif.Antlr Verif.Spec.Pp

/-- An environment whose parser is the grammar. -/
def Grammar (env : Env) (bad : Str → Option Str) (errs : Str → SynErr × List SynErr) : Prop :=
  env.parse = Pp.parse env.lang bad errs

/-- An environment without files. -/
def textEnv (lang : Nat) : Env where
  lang := lang
  parse := Pp.parse lang (fun _ => none) (fun _ => (⟨[], 1, 0, c! "error"⟩, []))
  fileExists _ := false
  readFile _ := .error (c! "No such file")
  join d n := d ++ c! "/" ++ n
  parent := demoParent

/-- Output for a text, `none` if there is an exception. -/
def ppOut (lang : Nat) (s : Str) : Option Str := (verilogPpStr (textEnv lang) [] [] s (c! "utf-8")).1.toOption

/-- Preprocessing ends with a ParseException. -/
def Rejects (env : Env) (db : MacroDB) (incdirs : List Str) (text enc : Str) : Prop :=
  ∃ m, (verilogPpStr env db incdirs text enc).1 = .error (.parse m)

theorem parse_tree {lang : Nat} {bad : Str → Option Str} {errs : Str → SynErr × List SynErr} {s : Str} {t : Nodes}
    (hb : bad s = none) (h : parseText lang s = some t) : Pp.parse lang bad errs s = .tree t := by
  simp [Pp.parse, hb, h]

/-- A text the parser does not accept is rejected with a ParseException and no effect. -/
theorem rejected_str (env : Env) (bad : Str → Option Str) (errs : Str → SynErr × List SynErr) (hg : Grammar env bad errs)
    (db : MacroDB) (incdirs : List Str) (text enc u : Str) (henc : toUtf8 text enc = .ok u) (hb : bad u = none)
    (h : parseText env.lang u = none) :
    ∃ m, verilogPpStr env db incdirs text enc = (.error (.parse m), initState env db incdirs) := by
  have hp : env.parse u = .syntaxErrors (errs u).1 (errs u).2 := by rw [hg]; simp [Pp.parse, hb, h]
  refine ⟨formatErrors (c! "Preproc") ((errs u).1 :: (errs u).2), ?_⟩
  unfold verilogPpStr runStr
  rw [M.bind_error]
  rw [M.bind_ok (M.get_apply _)]
  have hset : (OutBuf.new 0).setFileLine ((initState env db incdirs).incStack.getLast?.getD (c! "<string>")) 0 =
    .ok (⟨[], [⟨0, c! "<string>", 0⟩], 0, 0, 0⟩ : OutBuf) := rfl
  rw [M.bind_lift hset]
  rw [M.bind_ok (show M.lift _ _ = _ from by rw [M.lift_apply, henc])]
  rw [show FUEL = (FUEL - 1) + 1 from rfl, run, hp]
  rfl

/-! ## C02 -/

private theorem codes_eq (l : Nat) (toks : List Str) : codeNodes l toks = codes l toks := by
  induction toks generalizing l with
  | nil => rfl
  | cons t r ih => rw [codeNodes, codes, ih]

/-- **C02** (any text): a text without a back-tick is reproduced exactly, or rejected with a ParseException because the
lexer cannot read it; nothing else can happen to it, and the state does not change. -/
theorem C02_text_partial (env : Env) (bad : Str → Option Str) (errs : Str → SynErr × List SynErr) (hg : Grammar env bad errs)
    (db : MacroDB) (incdirs : List Str) (text enc u : Str) (henc : toUtf8 text enc = .ok u) (hb : bad u = none)
    (hbt : '`' ∉ u) (h1 : 1 ≤ env.lang) (h2 : env.lang ≤ 8) :
    verilogPpStr env db incdirs text enc = (.ok u, initState env db incdirs) ∨
    ∃ m, verilogPpStr env db incdirs text enc = (.error (.parse m), initState env db incdirs) := by
  rcases parse_plain env.lang hbt with h | ⟨toks, h, hf⟩
  · exact .inr (rejected_str env bad errs hg db incdirs text enc u henc hb h)
  · rw [codes_eq] at h
    exact .inl (C02_verbatim_str env db incdirs text enc u toks henc (by rw [hg]; exact parse_tree hb h) hf h1 h2)

set_option maxRecDepth 10000 in
example : toUtf8 (c! "x = \"a\"; // c\ny = 1 / 2;\n") (c! "utf-8") = .ok (c! "x = \"a\"; // c\ny = 1 / 2;\n") ∧
    '`' ∉ (c! "x = \"a\"; // c\ny = 1 / 2;\n") ∧
    ppOut 8 (c! "x = \"a\"; // c\ny = 1 / 2;\n") = some (c! "x = \"a\"; // c\ny = 1 / 2;\n") := by decide +kernel

/-- The source has no directives and no macro calls. -/
def noDirectives : Items → Bool
  | .nil => true
  | .cons (.code _) r => noDirectives r
  | .cons (.str _) r => noDirectives r
  | .cons (.lineComment _ _) r => noDirectives r
  | .cons (.comment _) r => noDirectives r
  | .cons _ _ => false

private theorem tree_codes (is : Items) (h : noDirectives is = true) (p : Nat × Nat) :
    ∃ toks, is.tree p = codes p.1 toks ∧ toks.flatten = is.text := by
  induction is using noDirectives.induct generalizing p with
  | case1 => exact ⟨[], rfl, rfl⟩
  | case6 i r h1 h2 h3 h4 =>
    cases i <;> first | exact absurd rfl (h1 _ ) | exact absurd rfl (h2 _) | exact absurd rfl (h3 _ _) | exact absurd rfl (h4 _) | simp [noDirectives] at h
  | _ =>
    rename_i r ih
    obtain ⟨toks, e1, e2⟩ := ih h (Spec.Pp.after p (Item.text _))
    refine ⟨Item.text _ :: toks, ?_, by rw [List.flatten_cons, e2]; rfl⟩
    rw [Items.tree, codes, e1, after_eq, advance_fst]
    rfl

/-- **C02** (sources without directives): code, strings and comments (with or without back-ticks inside), in any order,
are reproduced exactly. -/
theorem C02_source_partial (env : Env) (bad : Str → Option Str) (errs : Str → SynErr × List SynErr) (hg : Grammar env bad errs)
    (db : MacroDB) (incdirs : List Str) (text enc : Str) (is : Items) (henc : toUtf8 text enc = .ok is.text)
    (hb : bad is.text = none) (hok : is.ok env.lang [] = true) (hd : noDirectives is = true) (h1 : 1 ≤ env.lang) (h2 : env.lang ≤ 8) :
    verilogPpStr env db incdirs text enc = (.ok is.text, initState env db incdirs) := by
  obtain ⟨toks, e1, e2⟩ := tree_codes is hd (1, 0)
  exact C02_verbatim_str env db incdirs text enc is.text toks henc
    (by rw [hg]; exact parse_tree hb (by rw [parse_reads hok, e1])) e2 h1 h2

example : let is : Items := .cons (.code [.ch 'x', .ch '=', .slash ' ', .esc (c! "a`b") ' ']) (.cons (.str [.ch '`', .esc 'n'])
      (.cons (.code [.ch ';', .ch '\n']) (.cons (.lineComment (c! " `define \"x") (c! "\n")) (.cons (.comment (c! " ` \n ")) .nil))))
    is.ok 8 [] = true ∧ noDirectives is = true ∧ is.text = c! "x=/ \\a`b \"`\\n\";\n// `define \"x\n/* ` \n */" := by decide

set_option maxRecDepth 10000 in
/-- **C02 is false** for texts with a slash directly in front of a string (IEEE 1800 A.8.3: a division by a string
literal), and for a slash at the end of the text: these are rejected. -/
theorem C02_violated_witness : parseText 8 (c! "assign y = a /\"b\";\n") = none ∧ ppOut 8 (c! "assign y = a /\"b\";\n") = none ∧
    ppOut 8 (c! "assign y = a / \"b\";\n") = some (c! "assign y = a / \"b\";\n") ∧ parseText 8 (c! "a /") = none := by decide +kernel

/-! ## C14 -/

set_option maxRecDepth 10000 in
/-- **C14 is false**: the text of a group which is not processed decides whether there is an error. -/
theorem C14_violated_witness :
    ppOut 8 (c! "`ifdef NOPE\nassign y = a / b;\n`endif\nx") = some (c! "\n\n\nx") ∧
    ppOut 8 (c! "`ifdef NOPE\nassign y = a /\"b\";\n`endif\nx") = none ∧
    parseText 8 (c! "`ifdef NOPE\nassign y = a /\"b\";\n`endif\nx") = none := by decide +kernel

/-! ## C95 -/

/-- **C95** (partial): every source composed of code, strings, comments, macro definitions with formal arguments and
defaults, `` `undef ``, calls with and without arguments, includes, the directives without effect, and nested
conditionals, written in one of the covered ways, is read by the lexer and the parser as exactly this structure, with
the right positions. Missing for the full property: the ways of writing `ok` does not cover; for some of them the claim is
false (`C95_violated_*`). -/
theorem C95_structure_partial (lang : Nat) (bad : Str → Option Str) (errs : Str → SynErr × List SynErr) (is : Items)
    (hb : bad is.text = none) (h : is.ok lang [] = true) : Pp.parse lang bad errs is.text = .tree (is.tree (1, 0)) :=
  parse_tree hb (parse_reads h)

/-- A source with nested conditionals, a macro with formal arguments, and calls. -/
def demoSource : Items :=
  .cons (.define [' '] (c! "ADD") (.args [⟨[], c! "a", [], none⟩, ⟨[' '], c! "b", [], some [.plain (c! "1")]⟩] [' ']
    [.plain (c! "(a + b)")]) ['\n']) <|
  .cons (.cond false [' '] (c! "SIM")
    (.cons (.code [.ch '\n']) (.cons (.callArgs (c! "ADD") [] [[.plain (c! "x"), .br '[', .plain (c! "0"), .br ']'], [.plain (c! " 2")]])
      (.cons (.code [.ch ';', .ch '\n']) .nil)))
    (.elif [' '] (c! "SYN") (.cons (.code [.ch '\n']) (.cons (.cond true [' '] (c! "T") .nil (.endif ['\n'])) .nil))
      (.els ['\n'] (.cons (.str [.ch 'a']) .nil) ['\n']))) <|
  .cons (.call (c! "LAST")) .nil

example : demoSource.ok 8 [] = true ∧ demoSource.text =
    c! "`define ADD(a, b=1) (a + b)\n`ifdef SIM\n`ADD(x[0], 2);\n`elsif SYN\n`ifndef T`endif\n`else\n\"a\"`endif\n`LAST" := by decide

set_option maxRecDepth 10000 in
/-- **C95 is false**: a macro call directly in front of a slash and another call (`` `A/`B ``), an `` `else `` with an
opening parenthesis behind it, and `` `endif `` directly in front of a comment are rejected or read as calls. -/
theorem C95_violated_witness :
    parseText 8 (c! "`define A 1\n`define B 2\nx = `A/`B;\n") = none ∧
    ppOut 8 (c! "`define A 1\n`define B 2\nx = `A / `B;\n") = some (c! "\n\nx = 1 / 2;\n") ∧
    ppOut 8 (c! "`define A 1\n`ifdef A\nx\n`else (y)\n`endif\n") = none ∧
    ppOut 8 (c! "`define A 1\n`ifdef A\nx\n`else y\n`endif\n") = some (c! "\n\nx\n") ∧
    parseText 8 (c! "`ifdef A\nx\n`endif//A\n") = none := by decide +kernel

/-! ## C96 -/

/-- **C96** (partial): in every covered source, all macro definitions (also those in conditional groups) are read with
their name, formal arguments, defaults, and with the text of their logical line: escaped line ends are line ends,
white space at both ends does not count. Missing for the full property: line comments, CR LF behind a backslash, block comments
of several lines (all false, see below), strings continued with an escaped line end. -/
theorem C96_macro_line_partial (lang : Nat) (bad : Str → Option Str) (errs : Str → SynErr × List SynErr) (is : Items)
    (hb : bad is.text = none) (h : is.ok lang [] = true) (hs : ∀ x ∈ is.defs, x.2.oneLineStrings = true) :
    ∃ t, Pp.parse lang bad errs is.text = .tree t ∧ List.Forall₂ DefIs is.defs (nodesDefs t) :=
  ⟨_, C95_structure_partial lang bad errs is hb h, items_defs is _ _ h hs⟩

example : let is : Items := .cons (.define [' '] (c! "M") (.body [' '] [.plain (c! "a +"), .esc, .plain (c! "  b"), .esc, .str [.ch 'c']]) ['\n']) demoSource
    is.ok 8 [] = true ∧ (∀ x ∈ is.defs, x.2.oneLineStrings = true) ∧ is.defs.length = 2 ∧
    (is.defs.map fun x => (x.1, strip x.2.logical)) = [(c! "M", c! "a +\n  b\n\"c\""), (c! "ADD", c! "(a + b)")] := by decide

set_option maxRecDepth 10000 in
/-- **C96 is false** if the macro text is only a line comment or ends with a string and a line comment directly behind
it: the next line becomes a part of the macro. -/
theorem C96_violated_line_comment :
    ppOut 8 (c! "`define X // comment\nnext line\n`X") = some (c! "\n\nnext line") ∧
    ppOut 8 (c! "`define A \"x\"//c\nnext\n`A") = some (c! "\n\n\"x\"next") := by decide +kernel

set_option maxRecDepth 10000 in
/-- **C96 is false** for sources with CR LF line ends: a backslash at the end of the line does not continue the macro,
the second line becomes code. -/
theorem C96_violated_crlf :
    ppOut 8 (c! "`define M abc\\\ndef\n`M") = some (c! "\n\nabc\ndef") ∧
    ppOut 8 (c! "`define M abc\\\r\ndef\r\n`M") = some (c! "\ndef\r\nabc\\") := by decide +kernel

set_option maxRecDepth 10000 in
/-- **C96 is false** for a block comment of two lines: the macro ends inside of the comment. -/
theorem C96_violated_block_comment :
    ppOut 8 (c! "`define M 1 /* a\nb */ + 2\n`M") = some (c! "\nb */ + 2\n1 /* a") := by decide +kernel

/-! ## C97 -/

/-- **C97** (partial): two covered sources with the same directives and macro calls, whatever code, strings, comments and
white space is between them, are read as the same directives and calls. Missing for the full property: comments inside of
macro texts, arguments and directive lines, where the claim is false. -/
theorem C97_same_directives_partial (lang : Nat) (bad : Str → Option Str) (errs : Str → SynErr × List SynErr) (is js : Items)
    (hb : bad is.text = none) (hb' : bad js.text = none) (h : is.ok lang [] = true) (h' : js.ok lang [] = true)
    (he : is.bare = js.bare) :
    ∃ t u, Pp.parse lang bad errs is.text = .tree t ∧ Pp.parse lang bad errs js.text = .tree u ∧ nodesBare t = nodesBare u :=
  ⟨_, _, C95_structure_partial lang bad errs is hb h, C95_structure_partial lang bad errs js hb' h', by
    rw [items_bare is _ (1, 0), items_bare js _ (1, 0), he]⟩

example : let is : Items := .cons (.comment (c! " `endif ` \n ")) (.cons (.cond false [' '] (c! "A") (.cons (.code [.ch '\n']) .nil)
      (.endif ['\n'])) .nil)
    let js : Items := .cons (.cond false [' ', ' '] (c! "A") (.cons (.code [.ch ' ']) (.cons (.lineComment (c! " `else") (c! "\n")) .nil))
      (.endif [' '])) (.cons (.str [.ch '`']) .nil)
    is.ok 8 [] = true ∧ js.ok 8 [] = true ∧ is.text = c! "/* `endif ` \n */`ifdef A\n`endif\n" ∧
    js.text = c! "`ifdef  A // `else\n`endif \"`\"" := by decide
example : (Items.cons (.comment (c! " `endif ` \n ")) (.cons (.cond false [' '] (c! "A") (.cons (.code [.ch '\n']) .nil)
      (.endif ['\n'])) .nil)).bare =
    (Items.cons (.cond false [' ', ' '] (c! "A") (.cons (.code [.ch ' ']) (.cons (.lineComment (c! " `else") (c! "\n")) .nil))
      (.endif [' '])) (.cons (.str [.ch '`']) .nil)).bare := rfl

set_option maxRecDepth 10000 in
/-- **C97 is false** in a macro text: quotes in a line comment make it a part of the macro. -/
theorem C97_violated_body : ppOut 8 (c! "`define A 1 // the best value\n`A") = some (c! "\n1") ∧
    ppOut 8 (c! "`define A 1 // the \"best\" value\n`A") = some (c! "\n1 \"best\" value") ∧
    parseText 8 (c! "`define A 1 // 6\" wide\n`A") = none := by decide +kernel

set_option maxRecDepth 10000 in
/-- **C97 is false** in arguments: a comma in a comment separates arguments. -/
theorem C97_violated_argument :
    ppOut 8 (c! "`define F(x) <x>\n`F(a /* b c */)") = some (c! "\n<a /* b c */>") ∧
    ppOut 8 (c! "`define F(x) <x>\n`F(a /* b, c */)") = none := by decide +kernel

set_option maxRecDepth 10000 in
/-- **C97 is false** on directive lines: a comment behind `` `undef ``, `` `include ``, `` `default_nettype `` is an error, behind
`` `celldefine `` the directive is taken as an undefined macro, and a comment directly behind `` `else `` changes the branch. -/
theorem C97_violated_directive :
    parseText 8 (c! "`undef A// c\n") = none ∧ parseText 8 (c! "`include \"f.v\" /* c */\n") = none ∧
    parseText 8 (c! "`default_nettype none // c\n") = none ∧
    ppOut 8 (c! "`celldefine\nx") = some (c! "\nx") ∧ ppOut 8 (c! "`celldefine // c\nx") = none ∧
    ppOut 8 (c! "`ifdef A\nx\n`else //c\ny\n`endif\n") = some (c! "\n\n//c\ny\n") ∧
    ppOut 8 (c! "`ifdef A\nx\n`else//c\ny\n`endif\n") = some [] := by decide +kernel

/-! ## C98 -/

/-- The states the lexer can get into on some text. -/
inductive LexReach : St → Prop
  | init : LexReach St.init
  | step {st : St} {s : Str} {r : Rule} {n : Nat} : LexReach st → pick Rule.re (rules st.mode) (syms s) = some (r, n) →
      LexReach (r.exec st (s.take n)).st

private theorem reach_inv {st : St} (h : LexReach st) : StackInv st := by
  induction h with
  | init => exact .inl ⟨rfl, rfl⟩
  | step _ hp ih => exact (good_step _ ih _ (pick_some hp).1 _).2

/-- **C98**: on no text the lexer takes a mode from an empty mode stack (nor does another action fail): whatever state it
has reached and whatever rule matches next. -/
theorem C98_mode_stack (st : St) (h : LexReach st) (s : Str) (r : Rule) (n : Nat)
    (hp : pick Rule.re (rules st.mode) (syms s) = some (r, n)) : (r.exec st (s.take n)).fail = false :=
  (good_step _ (reach_inv h) _ (pick_some hp).1 _).1

/-- The depth of the mode stack is at most 2, however deep directives and arguments are nested in the text. -/
theorem C98_depth (st : St) (h : LexReach st) : st.stack.length ≤ 2 := by
  rcases reach_inv h with ⟨-, e⟩ | ⟨-, -, -, e⟩ | ⟨-, -, ⟨e, -⟩ | ⟨e, -⟩⟩ <;> simp [e]

set_option maxRecDepth 10000 in
/-- A state with two modes on the stack is reached: behind `` `F( ``. -/
example : ∃ st, LexReach st ∧ st.stack.length = 2 := by
  have h1 := LexReach.step (s := c! "`F(x)") (n := 1) .init (r := (defaultRules[5]'(by decide))) rfl
  have h2 := LexReach.step (s := c! "F(x)") (n := 2) h1 (r := (directiveRules[24]'(by decide))) rfl
  exact ⟨_, h2, by decide +kernel⟩

/-! ## C99 -/

/-- The conditional directives among the tokens of a text. -/
def condDirs (s : Str) : List CondDir := (((lex s).getD []).filter fun t => t.chan = .default).filterMap fun t => dirOf t.ty

/-- **C99**: if preprocessing gives an output, the conditional directives of the text are nested: each block is opened,
closed, has its `` `elsif `` groups in front of at most one `` `else `` group. For every text. -/
theorem C99_nested (env : Env) (bad : Str → Option Str) (errs : Str → SynErr × List SynErr) (hg : Grammar env bad errs)
    (db : MacroDB) (incdirs : List Str) (text enc u out : Str) (henc : toUtf8 text enc = .ok u) (hb : bad u = none)
    (h : (verilogPpStr env db incdirs text enc).1 = .ok out) : Nested (condDirs u) := by
  cases hp : parseText env.lang u with
  | none =>
    obtain ⟨m, e⟩ := rejected_str env bad errs hg db incdirs text enc u henc hb hp
    rw [e] at h; cases h
  | some t =>
    cases hl : lex u with
    | none => simp [parseText, hl] at hp
    | some ts =>
      have := accepted_nesting hp hl
      rw [condRun_dirs, List.filterMap_map] at this
      refine (dirRun_nested _ _ (Nat.le_refl _)).1 ?_
      rw [condDirs, hl]
      exact this

set_option maxRecDepth 10000 in
example : ppOut 8 (c! "`ifdef A\n`ifndef B\nx`endif\n`elsif C\n`else\ny // `endif\n`endif\n") = some (c! "y // `endif\n") ∧
    condDirs (c! "`ifdef A\n`ifndef B\nx`endif\n`elsif C\n`else\ny // `endif\n`endif\n") =
      [.opens, .opens, .endif, .elsif, .els, .endif] := by decide +kernel

/-- Behind any covered source, an `` `endif ``, `` `else `` or `` `elsif `` without `` `ifdef `` is rejected. -/
theorem C99_unopened (env : Env) (bad : Str → Option Str) (errs : Str → SynErr × List SynErr) (hg : Grammar env bad errs)
    (db : MacroDB) (incdirs : List Str) (text enc : Str) (is : Items) (r : Rest) (henc : toUtf8 text enc = .ok (is.text ++ r.text))
    (hb : bad (is.text ++ r.text) = none) (h : is.ok env.lang r.text = true) (hr : r.ok env.lang [] = true) :
    Rejects env db incdirs text enc := by
  obtain ⟨m, e⟩ := rejected_str env bad errs hg db incdirs text enc _ henc hb (parse_unopened h hr)
  exact ⟨m, by rw [e]⟩

example : (Items.cons (.code [.ch 'x', .ch '\n']) .nil).ok 8 (Rest.endif ['\n']).text = true ∧ (Rest.endif ['\n']).ok 8 [] = true := by decide

/-! ## C100 -/

/-- **C100** (partial): behind any covered source, a back-tick which is followed by neither the first character of a name
nor one of `` ` ``, `"`, `\`, `/` (white space, a digit, an operator, ...) is rejected, whatever follows. Missing for the full property: a back-tick at the end of the text,
which is dropped (`C100_violated_witness`), and sources that are not covered. -/
theorem C100_stray_partial (env : Env) (bad : Str → Option Str) (errs : Str → SynErr × List SynErr) (hg : Grammar env bad errs)
    (db : MacroDB) (incdirs : List Str) (text enc : Str) (is : Items) (c : Char) (rest : Str)
    (henc : toUtf8 text enc = .ok (is.text ++ '`' :: c :: rest)) (hb : bad (is.text ++ '`' :: c :: rest) = none)
    (h : is.ok env.lang ('`' :: c :: rest) = true) (hc : btStart c = false) : Rejects env db incdirs text enc := by
  obtain ⟨m, e⟩ := rejected_str env bad errs hg db incdirs text enc _ henc hb (parse_stray h hc)
  exact ⟨m, by rw [e]⟩

example : (Items.cons (.code [.ch 'x', .ch '=']) .nil).ok 8 (c! "`1;\n") = true ∧ btStart '1' = false := by decide

set_option maxRecDepth 10000 in
/-- **C100 is false** at the end of the text: the back-tick is dropped without an error. -/
theorem C100_violated_witness : ppOut 8 (c! "abc`") = some (c! "abc") := by decide +kernel

end Verif
