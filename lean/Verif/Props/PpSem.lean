import Verif.PpSemProof
import Verif.Props.PpText
/-!
# Property C101: the output of the preprocessor is the meaning of the source

`Spec.Pp.Sem` says what preprocessing of a source means; here the preprocessor with its lexer and parser computes it.
-/
namespace Verif
open Verif.Pp Verif.Antlr Verif.Spec Verif.Spec.Pp

private theorem abs_default {db : MacroDB} {w : World} (h : Abs db w.macros) (name : Str) (it : DbItem) (hr : Rep (.predefined false) it) :
    Abs (db.insert name it) (fun n => (w.macros n).or (if n = name then some (.predefined false) else none)) := by
  cases hn : w.macros name with
  | none =>
    have := h.insert hn hr
    convert this using 1
    funext n
    unfold World.set
    simp only
    split
    · rename_i he; subst he; rw [hn]; rfl
    · simp
  | some e =>
    obtain ⟨it', hf, -⟩ := h.found hn
    have : db.insert name it = db := by simp [MacroDB.insert, hf]
    rw [this]
    convert h using 1
    funext n
    split
    · rename_i he; subst he; rw [hn]; rfl
    · simp

/-- The macros at the start of a run. -/
theorem start_abs (env : Env) (db : MacroDB) (incdirs : List Str) (given : Str → Option Entry) (h : Abs db given) :
    Abs (initState env db incdirs).db (World.start env.lang given).macros := by
  have h1 : Abs db.deleteNonPersistent (fun n => (given n).filter Entry.fixed) :=
    h.filter (fun p => p.2.persistent) (fun _ e => e.fixed) (fun _ _ _ hr => hr.fixed)
  unfold initState MacroDB.addDefaults World.start
  simp only
  split
  · rename_i h6
    have h2 := abs_default (w := ⟨fun n => (given n).filter Entry.fixed, false⟩) h1 (c! "__LINE__") ⟨.line, false⟩ .line
    have h3 := abs_default (w := ⟨fun n => ((given n).filter Entry.fixed).or (if n = c! "__LINE__" then some (.predefined false) else none), false⟩)
      h2 (c! "__FILE__") ⟨.file, false⟩ .file
    have he : (fun n => ((given n).filter Entry.fixed).or
        (if 6 ≤ env.lang ∧ (n = c! "__LINE__" ∨ n = c! "__FILE__") then some (Entry.predefined false) else none)) =
      (fun n => (((given n).filter Entry.fixed).or (if n = c! "__LINE__" then some (.predefined false) else none)).or
        (if n = c! "__FILE__" then some (.predefined false) else none)) := by
      funext n
      cases (given n).filter Entry.fixed with
      | some e => rfl
      | none =>
        by_cases hl : n = c! "__LINE__"
        · subst hl; rw [if_pos ⟨h6, .inl rfl⟩]; rfl
        · by_cases hf : n = c! "__FILE__"
          · subst hf; rw [if_pos ⟨h6, .inr rfl⟩]; rfl
          · rw [if_neg (by rintro ⟨-, h | h⟩ <;> contradiction), if_neg hl, if_neg hf]; rfl
    rw [he]; exact h3
  · rename_i h6
    have he : (fun n => ((given n).filter Entry.fixed).or
        (if 6 ≤ env.lang ∧ (n = c! "__LINE__" ∨ n = c! "__FILE__") then some (Entry.predefined false) else none)) =
      fun n => (given n).filter Entry.fixed := by
      funext n
      rw [if_neg (by rintro ⟨h, -⟩; exact h6 h)]; simp
    rw [he]; exact h1

/-- No macros given from outside. -/
theorem no_macros : Abs [] (fun _ => none) := ⟨List.nodup_nil, fun _ => .none⟩

/-- **C101** (string, partial): if the rules of the language give a source the pieces `c` as its output and the macros `w'`
behind it, then preprocessing succeeds, its result is these pieces in this order with nothing but additional line ends
between them, and the macros which are defined afterwards are `w'`. Missing for the full property: what `Sem` and `Items.ok` do not
cover (redefinition, `` `elsif `` behind `` `ifndef ``, includes in macro texts, formal arguments in front of brackets, `` `" ``,
calls of predefined macros). For some of these the claim is false (`C13_violated_*`, `C15_violated_*`, `C19_violated_*`, `C06_violated_*`). -/
theorem C101_semantics_str_partial (env : Env) (bad : Str → Option Str) (errs : Str → SynErr × List SynErr) (hg : Grammar env bad errs)
    (hb : ∀ s, bad s = none) (hl1 : 1 ≤ env.lang) (hl2 : env.lang ≤ 8) (fs : Files) (enc : Str) (hfs : FilesOf env enc fs)
    (db : MacroDB) (given : Str → Option Entry) (hdb : Abs db given) (text : Str) (is : Items)
    (henc : toUtf8 text enc = .ok is.text) (hok : is.ok env.lang [] = true) (c : List Str) (w' : World)
    (hsem : Sem fs env.lang ⟨0, 0, none⟩ (World.start env.lang given) (.items is) c w') :
    ∃ out s', verilogPpStr env db fs.dirs text enc = (.ok out, s') ∧ Spaced c out ∧ Abs s'.db w'.macros ∧
      s'.ub = w'.undefs ∧ s'.incdirs = fs.dirs := by
  have hparse : ∀ js : Items, js.ok env.lang [] = true → env.parse js.text = .tree (js.tree (1, 0)) := fun js hjs => by
    rw [hg]; exact parse_tree (hb _) (parse_reads hjs)
  have hset : (OutBuf.new 0).setFileLine (c! "<string>") 0 = .ok (⟨[], [⟨0, c! "<string>", 0⟩], 0, 0, 0⟩ : OutBuf) := rfl
  obtain ⟨o, s', t, e1, e2, e3, -, e5⟩ := sem_holds hfs hparse hl1 hl2 hsem (FUEL - 1) ⟨c! "<string>", false, enc⟩
    (initState env db fs.dirs) (by decide) (by decide) (by decide)
    ⟨start_abs env db fs.dirs given hdb, rfl, rfl, rfl, by simp [initState], fun _ => ⟨rfl, rfl⟩⟩ (1, 0)
    ⟨[], [⟨0, c! "<string>", 0⟩], 0, 0, 0⟩ (by simp)
  refine ⟨t, s', ?_, e3, e5.abs, e5.ub, by simpa using e5.dirs⟩
  unfold verilogPpStr
  have : runStr (run env FUEL) text enc (OutBuf.new 0) (initState env db fs.dirs) = (.ok o, s') := by
    unfold runStr
    rw [M.bind_ok (M.get_apply _)]
    rw [show (initState env db fs.dirs).incStack.getLast?.getD (c! "<string>") = c! "<string>" from rfl, M.bind_lift hset,
      M.bind_lift henc, show FUEL = (FUEL - 1) + 1 from rfl, run_tree (hparse is hok) hl1 hl2]
    exact e1
  rw [M.bind_ok this]
  simpa using e2

/-- **C101** (file, partial): the same for a file; the directory of the file is searched behind the include directories. -/
theorem C101_semantics_file_partial (env : Env) (bad : Str → Option Str) (errs : Str → SynErr × List SynErr) (hg : Grammar env bad errs)
    (hb : ∀ s, bad s = none) (hl1 : 1 ≤ env.lang) (hl2 : env.lang ≤ 8) (fs : Files) (enc : Str) (hfs : FilesOf env enc fs)
    (db : MacroDB) (given : Str → Option Entry) (hdb : Abs db given) (path : Str) (is : Items)
    (hread : fs.read path = some is.text) (hok : is.ok env.lang [] = true) (c : List Str) (w' : World)
    (hsem : Sem fs env.lang (Place.include ⟨0, 0, none⟩ fs path) (World.start env.lang given) (.items is) c w') :
    ∃ out s', verilogPp env db fs.dirs path enc = (.ok out, s') ∧ Spaced c out ∧ Abs s'.db w'.macros ∧
      s'.ub = w'.undefs ∧ s'.incdirs = fs.dirs := by
  have hparse : ∀ js : Items, js.ok env.lang [] = true → env.parse js.text = .tree (js.tree (1, 0)) := fun js hjs => by
    rw [hg]; exact parse_tree (hb _) (parse_reads hjs)
  obtain ⟨o, s', h1, h2, h3, h4, -, -, h7⟩ := file_res (pl := ⟨0, 0, none⟩) hfs hparse hl1 hl2 rfl (by simp) hread hok
    (sem_holds hfs hparse hl1 hl2 hsem) (fuel := FUEL) (by decide) (s := initState env db fs.dirs)
    (start_abs env db fs.dirs given hdb) rfl rfl rfl rfl
  refine ⟨o.text, s', ?_, h2, h3, h4, h7⟩
  unfold verilogPp
  rw [M.bind_ok h1]
  rfl

/-! ### an example -/

/-- One file. -/
def semFiles : Files where
  dirs := [c! "d"]
  isFile p := p == c! "d/f.v"
  read p := if p = c! "d/f.v" then some (c! "z\n") else none
  join d n := d ++ c! "/" ++ n
  parent := demoParent

def semEnv : Env where
  lang := 8
  parse := Pp.parse 8 (fun _ => none) (fun _ => (⟨[], 1, 0, c! "error"⟩, []))
  fileExists p := p == c! "d/f.v"
  readFile p := if p = c! "d/f.v" then .ok (c! "z\n") else .error (c! "No such file")
  join d n := d ++ c! "/" ++ n
  parent := demoParent

theorem semFiles_of : FilesOf semEnv (c! "utf-8") semFiles := ⟨rfl, rfl, rfl, fun p t h => by
  by_cases hp : p = c! "d/f.v"
  · refine ⟨c! "z\n", by simp [semEnv, hp], ?_⟩
    simp only [semFiles, hp, if_true] at h
    cases h; rfl
  · simp [semFiles, hp] at h⟩

/-- `` `define ADD(a,b=1) (a + b) ``, a macro which calls it, an include in a conditional, and a call. -/
def semSource : Items :=
  .cons (.define [' '] (c! "ADD") (.args [⟨[], c! "a", [], none⟩, ⟨[], c! "b", [], some [.plain (c! "1")]⟩] [' '] [.plain (c! "(a + b)")]) ['\n']) <|
  .cons (.define [' '] (c! "ONE") (.body [' '] [.plain (c! "`ADD(x)")]) ['\n']) <|
  .cons (.cond true [' '] (c! "NOPE")
    (.cons (.code [.ch '\n']) (.cons (.incl [' '] [.ch 'f', .ch '.', .ch 'v'] [] ['\n']) .nil))
    (.els ['\n'] (.cons (.call (c! "NOPE")) (.cons (.code [.ch '\n']) .nil)) ['\n'])) <|
  .cons (.code [.ch 'y', .ch '=']) <|
  .cons (.call (c! "ONE")) <|
  .cons (.code [.ch ';']) .nil

example : semSource.ok 8 [] = true ∧ semSource.text =
    c! "`define ADD(a,b=1) (a + b)\n`define ONE `ADD(x)\n`ifndef NOPE\n`include \"f.v\"\n`else\n`NOPE\n`endif\ny=`ONE;" := by decide

/-- The macros behind it. -/
def semAfter : World :=
  ((World.start 8 fun _ => none).set (c! "ADD")
    (some (.user (some [⟨c! "a", false, []⟩, ⟨c! "b", true, c! "1"⟩]) (c! " (a + b)") false))).set (c! "ONE")
    (some (.user none (c! "`ADD(x)") false))

/-- Its meaning: the text of the file, and the expansion of the call inside of the expansion. -/
theorem semSource_means : Sem semFiles 8 ⟨0, 0, none⟩ (World.start 8 fun _ => none) (.items semSource)
    [c! "\n", c! "z\n", c! "y=", c! " (x + 1)", c! ";"] semAfter := by
    refine Sem.cons (c := []) (.define rfl (by decide) (by decide) (by decide) (by decide)) ?_
    refine Sem.cons (c := []) (.define rfl (by decide) (by decide) (by decide) (by decide)) ?_
    refine Sem.cons (c := [c! "\n", c! "z\n"]) (w' := semAfter) ?_ ?_
    · refine .condTrue (by decide) ?_
      refine Sem.cons (c := [c! "\n"]) (w' := semAfter) .code ?_
      refine Sem.cons (c := [c! "z\n"]) (c' := []) (w' := semAfter) ?_ .nil
      refine .incl (path := c! "d/f.v") (js := .cons (.code [.ch 'z', .ch '\n']) .nil) rfl (by decide)
        ⟨[], c! "d", [], rfl, by decide, by decide, by simp⟩ (by decide) (by decide) ?_
      exact Sem.cons (c := [c! "z\n"]) (c' := []) .code .nil
    · refine Sem.cons (c := [c! "y="]) (w' := semAfter) .code ?_
      refine Sem.cons (c := [c! " (x + 1)"]) (w' := semAfter) (c' := [c! ";"]) ?_ (Sem.cons (c := [c! ";"]) (c' := []) .code .nil)
      refine .call (body := c! "`ADD(x)") (r := c! "`ADD(x)") (f := false) (by decide) ?_ ?_
      · exact ⟨_, .done _ (by decide), .done _ (by decide)⟩
      · refine .again (js := .cons (.callArgs (c! "ADD") [] [[.plain (c! "x")]]) .nil) (by decide) (by decide) (by decide) (by decide) ?_ (by decide)
        refine Sem.cons (c := [c! " (x + 1)"]) (w' := semAfter) (c' := []) ?_ .nil
        refine .callArgs (ps := [⟨c! "a", false, []⟩, ⟨c! "b", true, c! "1"⟩]) (body := c! " (a + b)") (f := false) (vals := [c! "x", c! "1"])
          (e := c! " (x + 1)") (r := c! " (x + 1)") (by decide) (by decide) (by decide) (by decide) ?_ (.plain (by decide))
        exact ⟨_, .done _ (by decide), .done _ (by decide)⟩

example : ∃ out s', verilogPpStr semEnv [] [c! "d"] semSource.text (c! "utf-8") = (.ok out, s') ∧
    Spaced [c! "\n", c! "z\n", c! "y=", c! " (x + 1)", c! ";"] out ∧ Abs s'.db semAfter.macros := by
  obtain ⟨out, s', h1, h2, h3, -⟩ := C101_semantics_str_partial semEnv (fun _ => none) (fun _ => (⟨[], 1, 0, c! "error"⟩, [])) rfl (fun _ => rfl)
    (by decide) (by decide) semFiles (c! "utf-8") semFiles_of [] _ no_macros semSource.text semSource rfl (by decide) _ _ semSource_means
  exact ⟨out, s', h1, h2, h3⟩

example : ∃ out s', verilogPp semEnv [] [c! "d"] (c! "d/f.v") (c! "utf-8") = (.ok out, s') ∧ Spaced [c! "z\n"] out := by
  obtain ⟨out, s', h1, h2, -⟩ := C101_semantics_file_partial semEnv (fun _ => none) (fun _ => (⟨[], 1, 0, c! "error"⟩, [])) rfl (fun _ => rfl)
    (by decide) (by decide) semFiles (c! "utf-8") semFiles_of [] _ no_macros (c! "d/f.v") (.cons (.code [.ch 'z', .ch '\n']) .nil) rfl (by decide)
    [c! "z\n"] _ (Sem.cons (c := [c! "z\n"]) (c' := []) .code .nil)
  exact ⟨out, s', h1, h2⟩

set_option maxRecDepth 10000 in
/-- The run on this source. -/
example : (verilogPpStr semEnv [] [c! "d"] semSource.text (c! "utf-8")).1.toOption = some (c! "\n\n\nz\n\n\n\ny= (x + 1);") := by decide +kernel

set_option maxRecDepth 10000 in
/-- **C101 is false** outside of the covered sources, on whole texts: a formal argument in front of a bracket is not replaced
(22.5.1 gives `x(1)`), the first of two definitions counts (22.5.1: the last one), `` `elsif B `` behind `` `ifndef A `` is taken although `B` is
not defined (22.6: it is not), and the parentheses of a call `` `A() `` of a macro defined as `` `A() `` stay in the text (22.5.1 gives `x`). -/
theorem C101_violated_witness :
    ppOut 8 (c! "`define F(a) a(1)\n`F(x)\n") = some (c! "\na(1)\n") ∧
    ppOut 8 (c! "`define A 1\n`define A 2\n`A\n") = some (c! "\n\n1\n") ∧
    ppOut 8 (c! "`define A 1\n`ifndef A\nx\n`elsif B\ny\n`endif\n") = some (c! "\n\n\n\ny\n") ∧
    ppOut 8 (c! "`define A() x\n`A()\n") = some (c! "\nx()\n") := by decide +kernel

end Verif
