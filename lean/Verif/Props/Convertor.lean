import Verif.Convertor
import Verif.Spec.Utf8
import Verif.Props.Preproc
import Verif.Props.Encoding
/-!
# Properties of parse / parse_str: C27, C28, C57, C58, C59
-/
namespace Verif
open Spec

/-! ## What the parser of the language gets -/

/-- A source given to the convertor. -/
inductive Source
  | file (f : Str)
  | str (text : Str)

/-- The call of the convertor. -/
def Source.exec {T C : Type} (env : Env) (hdl : Hdl T C) (U : List Str) (enc : Str) (hier : Bool) (a : Api C) :
    Source → Except Exc Unit × Api C
  | .file f => parseFile env hdl U enc hier f a
  | .str t => parseString env hdl U enc hier t a

/-- The parser of the language is started with this text (for VHDL the decoded source, for Verilog the output of the
preprocessor), errors carry this name. -/
def ParserInput (env : Env) (db : MacroDB) (U : List Str) (enc : Str) (name txt : Str) : Source → Prop
  | .file f => env.fileExists f = true ∧ name = f ∧
      if env.lang = 0 then ∃ b, env.readFile f = .ok b ∧ toUtf8 b enc = .ok txt
      else env.lang ≤ 8 ∧ (verilogPp env db U f enc).1 = .ok txt
  | .str s => name = c! "<string>" ∧
      if env.lang = 0 then toUtf8 s enc = .ok txt
      else env.lang ≤ 8 ∧ (verilogPpStr env db U s enc).1 = .ok txt

private theorem exec_eq {T C : Type} {env : Env} {hdl : Hdl T C} {U : List Str} {enc : Str} {hier : Bool} {a : Api C} {name txt : Str}
    {src : Source} (h : ParserInput env a.db U enc name txt src) :
    (src.exec env hdl U enc hier a).1 = (parseText hdl Logger.new name txt hier a.ctx).1 ∧
    (src.exec env hdl U enc hier a).2.ctx = (parseText hdl Logger.new name txt hier a.ctx).2 := by
  cases src with
  | file f =>
    obtain ⟨h1, rfl, h3⟩ := h
    unfold Source.exec parseFile
    simp only [h1, Bool.true_eq_false, if_false]
    split at h3
    · rename_i hl
      obtain ⟨b, hb, ht⟩ := h3
      simp [hl, hb, ht, Except.mapError]
    · rename_i hl
      simp [hl, h3.1, h3.2]
  | str s =>
    obtain ⟨rfl, h3⟩ := h
    unfold Source.exec parseString
    split at h3
    · rename_i hl
      simp [hl, h3]
    · rename_i hl
      simp [hl, h3.1, h3.2]

private theorem foldl_errs (name : Str) (errs : List RawErr) (lg : Logger) (hm : lg.map = none) :
    errs.foldl (fun lg e => lg.syntaxError name e) lg =
      { lg with errors := lg.errors ++ errs.map (fun e => ⟨name, e.line, e.col, e.msg⟩) } := by
  induction errs generalizing lg with
  | nil => simp
  | cons e r ih =>
    rw [List.foldl_cons, ih _ (by simp [Logger.syntaxError, hm])]
    simp [Logger.syntaxError, hm]

/-! ## C27 -/

/-- One reported error as the user sees it. -/
def errLine (name : Str) (e : RawErr) : Str :=
  name ++ c! ":" ++ Nat.toDigits 10 e.line ++ c! ":" ++ Nat.toDigits 10 e.col ++ c! ":SyntaxError:" ++ e.msg ++ c! "\n"

/-- **C27**: if the parser reported errors, exactly these are raised, one per line in order, and nothing was added to the
context; otherwise the result is that of the conversion of the tree. -/
theorem C27_syntax_errors {T C : Type} (env : Env) (hdl : Hdl T C) (U : List Str) (enc : Str) (hier : Bool) (a : Api C)
    (name txt : Str) (src : Source) (errs : List RawErr) (t : T)
    (hin : ParserInput env a.db U enc name txt src) (hp : hdl.parse txt = .done errs t) :
    ((src.exec env hdl U enc hier a).1 =
      if errs = [] then (hdl.convert hier t a.ctx).1
      else .error (.parse (c! "\n" ++ errs.flatMap (fun e => errLine name { e with col := e.col % 2 ^ 32 })))) ∧
    ((src.exec env hdl U enc hier a).2.ctx = if errs = [] then (hdl.convert hier t a.ctx).2 else a.ctx) := by
  obtain ⟨h1, h2⟩ := exec_eq (hdl := hdl) (hier := hier) hin
  rw [h1, h2]
  unfold parseText
  simp only [hp]
  rw [foldl_errs name errs Logger.new rfl]
  cases errs with
  | nil =>
    simp only [Logger.new, List.map_nil, List.append_nil, Logger.checkErrors, List.length_nil, gt_iff_lt, Nat.lt_irrefl,
      if_false, if_true]
    rcases hdl.convert hier t a.ctx with ⟨e | _, c⟩ <;> simp
  | cons e r =>
    have : formatErrors [] ((e :: r).map (fun e => (⟨name, e.line, e.col, e.msg⟩ : SynErr))) =
        c! "\n" ++ (e :: r).flatMap (fun e => errLine name { e with col := e.col % 2 ^ 32 }) := by
      unfold formatErrors
      rw [List.flatMap_map]
      simp [errLine, dec]
    simp only [Logger.new, Logger.checkErrors, List.nil_append, this, List.length_map, List.length_cons, gt_iff_lt, Nat.zero_lt_succ,
      if_true, reduceCtorEq, if_false, and_self]

/-- a parser that reports an error at every `@` and builds the list of characters -/
def atErrs : Nat → Nat → Str → List RawErr
  | _, _, [] => []
  | l, c, x :: r => if x = '@' then ⟨l, c, c! "bad @"⟩ :: atErrs l (c + 1) r
    else if x = '\n' then atErrs (l + 1) 0 r else atErrs l (c + 1) r
def atHdl : Hdl Str (List Char) := ⟨fun s => .done (atErrs 1 0 s) s, fun _ t c => (.ok (), c ++ t)⟩

example : ParserInput (tableEnv 0 [] []) [] [] (c! "utf-8") (c! "<string>") (c! "a@\n @") (.str (c! "a@\n @")) := by
  simp [ParserInput, tableEnv, toUtf8]
example : ((Source.str (c! "a@\n @")).exec (tableEnv 0 [] []) atHdl [] (c! "utf-8") false ⟨[], [], false⟩).1 =
    .error (.parse (c! "\n<string>:1:1:SyntaxError:bad @\n<string>:2:1:SyntaxError:bad @\n")) := by decide

/-- **C27** for a list of files: the first file that fails determines the exception and the state; the following files are
not processed. -/
theorem C27_first_failing_file {T C : Type} (env : Env) (hdl : Hdl T C) (U : List Str) (enc : Str) (hier : Bool) (pre post : List Str)
    (f : Str) (a a1 a2 : Api C) (e : Exc) (hpre : parseFiles env hdl U enc hier pre a = (.ok (), a1))
    (hf : parseFile env hdl U enc hier f a1 = (.error e, a2)) :
    parseFiles env hdl U enc hier (pre ++ f :: post) a = (.error e, a2) := by
  induction pre generalizing a with
  | nil =>
    simp only [parseFiles, Prod.mk.injEq, true_and] at hpre
    subst hpre
    simp [parseFiles, hf]
  | cons g r ih =>
    simp only [List.cons_append, parseFiles] at hpre ⊢
    rcases hg : parseFile env hdl U enc hier g a with ⟨e' | u, a'⟩
    · simp [hg] at hpre
    · simp only [hg] at hpre ⊢
      exact ih a' hpre

example : parseFiles (tableEnv 0 [] [(c! "f", c! "x"), (c! "g", c! "@")]) atHdl [] (c! "utf-8") false [c! "f"] ⟨[], [], false⟩ =
    (.ok (), ⟨[], c! "x", false⟩) := by decide

/-! ## C28 -/

/-- **C28 is false**: `a/top.v` includes a file with two lines; the error is in line 2 of `a/top.v` but line 3 is reported
(and an error in the included file is reported for `a/top.v`). -/
theorem C28_violated_witness :
    let env := tableEnv 8 [(c! "top", .cons (.incl 1 0 (.str (c! "\"b.v\""))) (.cons (.code 1 (c! "\n")) (.cons (.code 2 (c! "@")) .nil)))]
      [(c! "a/top.v", c! "top"), (c! "a/b.v", c! "x\ny")]
    ((Source.file (c! "a/top.v")).exec env atHdl [] (c! "utf-8") false ⟨[], [], false⟩).1 =
      .error (.parse (c! "\na/top.v:3:0:SyntaxError:bad @\n")) := by decide

/-- **C28 is false**, in general: the reported line is always that of the preprocessed text and the file is always the file
given by the user, whatever the line map of the preprocessor says. -/
theorem C28_violated_general {T C : Type} (env : Env) (hdl : Hdl T C) (U : List Str) (enc : Str) (hier : Bool) (a : Api C)
    (f txt : Str) (e : RawErr) (t : T) (hcol : e.col < 2 ^ 32)
    (hin : ParserInput env a.db U enc f txt (.file f)) (hp : hdl.parse txt = .done [e] t) :
    ((Source.file f).exec env hdl U enc hier a).1 = .error (.parse (c! "\n" ++ errLine f e)) := by
  have := (C27_syntax_errors env hdl U enc hier a f txt (.file f) [e] t hin hp).1
  rw [this, if_neg (by simp)]
  simp only [Nat.mod_eq_of_lt hcol, List.flatMap_cons, List.flatMap_nil, List.append_nil]

/-- **C28** as far as it holds: for a Verilog file without directives and macro calls the parser gets the text of the file,
so the reported file, line and column are those of the original source. -/
theorem C28_no_directives_partial {T C : Type} (env : Env) (hdl : Hdl T C) (U : List Str) (enc : Str) (hier : Bool) (a : Api C)
    (f bytes u : Str) (toks : List Str) (errs : List RawErr) (t : T) (hex : env.fileExists f = true)
    (hread : env.readFile f = .ok bytes) (henc : toUtf8 bytes enc = .ok u) (hpp : env.parse u = .tree (codes 1 toks))
    (hcover : toks.flatten = u) (h1 : 1 ≤ env.lang) (h2 : env.lang ≤ 8)
    (hp : hdl.parse u = .done errs t) (hne : errs ≠ []) (hcol : ∀ e ∈ errs, e.col < 2 ^ 32) :
    ((Source.file f).exec env hdl U enc hier a).1 = .error (.parse (c! "\n" ++ errs.flatMap (errLine f))) := by
  have hin : ParserInput env a.db U enc f u (.file f) := by
    refine ⟨hex, rfl, ?_⟩
    rw [if_neg (by omega)]
    exact ⟨h2, C02_verbatim_file env a.db U f bytes enc u toks hread henc hpp hcover h1 h2⟩
  rw [(C27_syntax_errors env hdl U enc hier a f u (.file f) errs t hin hp).1, if_neg hne]
  congr 3
  apply List.flatMap_congr
  intro e he
  rw [Nat.mod_eq_of_lt (hcol e he)]

example : ((Source.file (c! "a/top.v")).exec (tableEnv 8 [(c! "a\n@", codes 1 [c! "a", c! "\n", c! "@"])] [(c! "a/top.v", c! "a\n@")])
    atHdl [] (c! "utf-8") false ⟨[], [], false⟩).1 = .error (.parse (c! "\na/top.v:2:0:SyntaxError:bad @\n")) := by decide

/-! ## C57, C59: what parse returns -/

/-- A convertor whose conversion adds the objects of the tree at the end of the context (as the visitors do with
`HdlContext::objs`). -/
def Appends {T O : Type} (hdl : Hdl T (List O)) (hier : Bool) (objs : T → List O) : Prop :=
  ∀ t c, hdl.convert hier t c = (.ok (), c ++ objs t)

private theorem parseFile_db {T C : Type} {env : Env} {hdl : Hdl T C} {U : List Str} {enc : Str} {hier : Bool} {a : Api C} {f : Str}
    (hu : a.db.Uniq) : (parseFile env hdl U enc hier f a).2.db.Uniq ∧
      (parseFile env hdl U enc hier f a).2.db.deleteNonPersistent = a.db.deleteNonPersistent := by
  have key := exec_persist (.file env U f enc) hu
  simp only [Job.exec] at key
  unfold parseFile
  split
  · exact ⟨hu, rfl⟩
  · split
    · split
      · exact ⟨hu, rfl⟩
      · split
        · exact ⟨hu, rfl⟩
        · exact ⟨hu, rfl⟩
    · split
      · simp only
        split
        · exact key
        · exact key
      · exact ⟨hu, rfl⟩

private theorem input_db {env : Env} {db db' : MacroDB} {U : List Str} {enc name txt : Str} {src : Source}
    (h : db'.deleteNonPersistent = db.deleteNonPersistent) (hin : ParserInput env db U enc name txt src) :
    ParserInput env db' U enc name txt src := by
  cases src <;> simpa only [ParserInput, verilogPp, verilogPpStr, initState, h] using hin

/-- **C59**: if every file of the list is accepted on its own (with the macros set through the API), parsing the list
succeeds and adds the objects of the files in the order of the list: no file influences another one. -/
theorem C59_files_independent {T O : Type} (env : Env) (hdl : Hdl T (List O)) (U : List Str) (enc : Str) (hier : Bool)
    (objs : T → List O) (happ : Appends hdl hier objs) (a : Api (List O)) (hu : a.db.Uniq) (files : List (Str × T))
    (h : ∀ p ∈ files, ∃ txt, ParserInput env a.db U enc p.1 txt (.file p.1) ∧ hdl.parse txt = .done [] p.2) :
    (parseFiles env hdl U enc hier (files.map Prod.fst) a).1 = .ok () ∧
    (parseFiles env hdl U enc hier (files.map Prod.fst) a).2.ctx = a.ctx ++ files.flatMap (fun p => objs p.2) := by
  suffices H : ∀ (a' : Api (List O)), a'.db.Uniq → a'.db.deleteNonPersistent = a.db.deleteNonPersistent →
      (parseFiles env hdl U enc hier (files.map Prod.fst) a').1 = .ok () ∧
      (parseFiles env hdl U enc hier (files.map Prod.fst) a').2.ctx = a'.ctx ++ files.flatMap (fun p => objs p.2) by
    exact H a hu rfl
  induction files with
  | nil => intro a' _ _; simp [parseFiles]
  | cons p r ih =>
    intro a' hu' hd'
    obtain ⟨txt, hin, hp⟩ := h p (by simp)
    obtain ⟨h1, h2⟩ := C27_syntax_errors env hdl U enc hier a' p.1 txt (.file p.1) [] p.2 (input_db hd' hin) hp
    obtain ⟨h3, h4⟩ := parseFile_db (env := env) (hdl := hdl) (U := U) (enc := enc) (hier := hier) (f := p.1) hu'
    rw [happ p.2 a'.ctx] at h1 h2
    simp only [if_true, Source.exec] at h1 h2
    rcases hx : parseFile env hdl U enc hier p.1 a' with ⟨e | u, a''⟩
    · rw [hx] at h1; simp at h1
    · rw [hx] at h2 h3 h4
      simp only [List.map_cons, parseFiles, hx]
      obtain ⟨e1, e2⟩ := ih (fun q hq => h q (by simp [hq])) a'' h3 (h4.trans hd')
      refine ⟨e1, ?_⟩
      rw [e2]
      simp only at h2
      rw [h2]
      simp

example : Appends atHdl false id := fun _ _ => rfl
example : (parseFiles (tableEnv 8 [] [(c! "f", c! "x"), (c! "g", c! "y")]) atHdl [] (c! "utf-8") false [c! "f", c! "g"] ⟨[], [], false⟩).2.ctx
    = c! "xy" := by decide

/-- **C57 is false**: two consecutive calls of `parse_str` on one convertor; the second one also returns the objects of the
first. For any sources that are accepted. -/
theorem C57_violated_general {T O : Type} (env : Env) (hdl : Hdl T (List O)) (U : List Str) (enc : Str) (hier : Bool)
    (objs : T → List O) (happ : Appends hdl hier objs) (hl : env.lang = 0) (s1 s2 txt1 txt2 : Str) (t1 t2 : T)
    (h1 : s1 ≠ []) (h2 : s2 ≠ [])
    (hi1 : toUtf8 (strEncode s1) (strEncode enc) = .ok txt1) (hi2 : toUtf8 (strEncode s2) (strEncode enc) = .ok txt2)
    (hp1 : hdl.parse txt1 = .done [] t1) (hp2 : hdl.parse txt2 = .done [] t2) (db : MacroDB) (ub : Bool) :
    let r1 := pyParseStr env hdl [] U enc hier s1 ⟨db, [], ub⟩
    r1.1 = .ok (objs t1) ∧ (pyParseStr env hdl [] U enc hier s2 r1.2).1 = .ok (objs t1 ++ objs t2) := by
  have key : ∀ (s txt : Str) (t : T) (a : Api (List O)), s ≠ [] → toUtf8 (strEncode s) (strEncode enc) = .ok txt →
      hdl.parse txt = .done [] t → pyParseStr env hdl [] U enc hier s a = (.ok (a.ctx ++ objs t), { a with ctx := a.ctx ++ objs t }) := by
    intro s txt t a hs hi hp
    unfold pyParseStr parseString parseText
    rw [if_neg hs]
    simp [hl, hi, hp, Logger.new, Logger.checkErrors, happ t, Except.map]
  simp only [key s1 txt1 t1 _ h1 hi1 hp1, key s2 txt2 t2 _ h2 hi2 hp2]
  simp

/-- C57 is false: the second call returns the objects of both calls. -/
theorem C57_violated_witness :
    let r1 := pyParseStr (tableEnv 0 [] []) atHdl [] [] (c! "utf-8") false (c! "a") ⟨[], [], false⟩
    r1.1 = .ok (c! "a") ∧ (pyParseStr (tableEnv 0 [] []) atHdl [] [] (c! "utf-8") false (c! "b") r1.2).1 = .ok (c! "ab") := by decide

/-- **C57** as far as it holds: on a new convertor the result of `parse` has exactly the objects of the given files. Missing: the
second and later calls. -/
theorem C57_first_call_partial {T O : Type} (env : Env) (hdl : Hdl T (List O)) (U : List Str) (enc : Str) (hier : Bool)
    (objs : T → List O) (happ : Appends hdl hier objs) (db : MacroDB) (hu : db.Uniq) (files : List (Str × T)) (ub : Bool)
    (h : ∀ p ∈ files, ∃ txt, ParserInput env db (U.map strEncode) (strEncode enc) (strEncode p.1) txt (.file (strEncode p.1)) ∧
      hdl.parse txt = .done [] p.2) :
    (pyParse env hdl [] U enc hier (files.map Prod.fst) ⟨db, [], ub⟩).1 = .ok (files.flatMap (fun p => objs p.2)) := by
  unfold pyParse
  split
  · rename_i he
    simp only [List.map_eq_nil_iff] at he
    simp [he]
  · have := C59_files_independent env hdl (U.map strEncode) (strEncode enc) hier objs happ ⟨db, [], ub⟩ hu
      (files.map (fun p => (strEncode p.1, p.2))) (by
        intro p hp
        obtain ⟨q, hq, rfl⟩ := List.mem_map.1 hp
        exact h q hq)
    rw [show (files.map Prod.fst).map strEncode = (files.map (fun p => (strEncode p.1, p.2))).map Prod.fst by simp]
    simp only [this.1, this.2, Except.map, List.nil_append]
    rw [List.flatMap_map]

/-! ## C58 -/

private theorem toNat_ofNat {n : Nat} (h : n < 256) : (Char.ofNat n).toNat = n := by
  have : ∀ n : Fin 256, (Char.ofNat n).toNat = n.val := by decide +kernel
  exact this ⟨n, h⟩

private theorem scalar (c : Char) : c.toNat < 0xD800 ∨ (0xDFFF < c.toNat ∧ c.toNat < 0x110000) := c.valid

private theorem decode_encodeChar (c : Char) (r : List Nat) :
    utf8Decode ((encodeChar c).map Char.toNat ++ r) = (utf8Decode r).map (c.toNat :: ·) := by
  have hv := scalar c
  unfold encodeChar
  generalize hn : c.toNat = v at hv
  simp only
  split
  · rename_i h
    simp only [List.map_cons, List.map_nil, List.singleton_append, hn]
    conv_lhs => unfold utf8Decode
    rw [if_pos h]
  · split
    · rename_i h1 h2
      simp only [List.map_cons, List.map_nil, List.cons_append, List.nil_append]
      rw [toNat_ofNat (by omega), toNat_ofNat (by omega)]
      conv_lhs => unfold utf8Decode
      rw [if_neg (by omega), if_pos (by omega)]
      simp only
      rw [if_pos (by simp [cont]; omega)]
      rw [show (0xC0 + v / 64) % 32 * 64 + (0x80 + v % 64) % 64 = v by omega]
    · split
      · rename_i h1 h2 h3
        simp only [List.map_cons, List.map_nil, List.cons_append, List.nil_append]
        rw [toNat_ofNat (by omega), toNat_ofNat (by omega), toNat_ofNat (by omega)]
        conv_lhs => unfold utf8Decode
        rw [if_neg (by omega), if_neg (by omega), if_pos (by omega)]
        simp only
        rw [show (0xE0 + v / 4096) % 16 * 4096 + (0x80 + v / 64 % 64) % 64 * 64 + (0x80 + v % 64) % 64 = v by omega]
        rw [if_pos (by simp [cont]; omega)]
      · rename_i h1 h2 h3
        simp only [List.map_cons, List.map_nil, List.cons_append, List.nil_append]
        rw [toNat_ofNat (by omega), toNat_ofNat (by omega), toNat_ofNat (by omega), toNat_ofNat (by omega)]
        conv_lhs => unfold utf8Decode
        rw [if_neg (by omega), if_neg (by omega), if_neg (by omega), if_pos (by omega)]
        simp only
        rw [show (0xF0 + v / 262144) % 8 * 262144 + (0x80 + v / 4096 % 64) % 64 * 4096 + (0x80 + v / 64 % 64) % 64 * 64 + (0x80 + v % 64) % 64 = v by omega]
        rw [if_pos (by simp [cont]; omega)]

theorem decode_strEncode (s : Str) : utf8Decode ((strEncode s).map Char.toNat) = some (s.map Char.toNat) := by
  induction s with
  | nil => rfl
  | cons c r ih =>
    rw [strEncode, List.flatMap_cons, List.map_append, decode_encodeChar]
    rw [show List.flatMap encodeChar r = strEncode r from rfl, ih]
    rfl

private theorem strEncode_ascii (s : Str) (h : ∀ c ∈ s, c.toNat < 128) : strEncode s = s := by
  induction s with
  | nil => rfl
  | cons c r ih =>
    rw [strEncode, List.flatMap_cons, show List.flatMap encodeChar r = strEncode r from rfl, ih (fun x hx => h x (by simp [hx]))]
    simp [encodeChar, h c (by simp)]

/-- **C58** as far as it holds: the text that a Python string is converted to for the parser is exactly that string, if the
encoding is 'utf-8' (the default), or 'iso-8859-1' and the string is ASCII. Missing: other strings with 'iso-8859-1'. -/
theorem C58_string_input_partial (s : Str) :
    (∃ t, toUtf8 (strEncode s) (c! "utf-8") = .ok t ∧ utf8Decode (t.map Char.toNat) = some (s.map Char.toNat)) ∧
    ((∀ c ∈ s, c.toNat < 128) →
      ∃ t, toUtf8 (strEncode s) (c! "iso-8859-1") = .ok t ∧ utf8Decode (t.map Char.toNat) = some (s.map Char.toNat)) := by
  constructor
  · exact ⟨strEncode s, by simp [toUtf8], decode_strEncode s⟩
  · intro h
    refine ⟨strEncode s, ?_, decode_strEncode s⟩
    have : iso88591ToUtf8 (strEncode s) = strEncode s := by
      rw [strEncode_ascii s h]
      exact C25_ascii s h
    simp [toUtf8, this]

example : ∀ c ∈ (c! "module m;"), c.toNat < 128 := by decide

/-- **C58 is false**: with 'iso-8859-1' every string with a character above 127 reaches the parser as another text. -/
theorem C58_violated_general (s t : Str) (hs : ∃ c ∈ s, 128 ≤ c.toNat)
    (ht : toUtf8 (strEncode s) (c! "iso-8859-1") = .ok t) : utf8Decode (t.map Char.toNat) ≠ some (s.map Char.toNat) := by
  unfold toUtf8 at ht
  rw [if_neg (by decide), if_neg (by decide), if_pos rfl] at ht
  simp only [Except.ok.injEq] at ht
  subst ht
  have hbytes : IsBytes (strEncode s) := by
    intro c hc
    obtain ⟨x, -, hx⟩ := List.mem_flatMap.1 hc
    have hv := scalar x
    unfold encodeChar at hx
    generalize hn : x.toNat = v at hv hx
    simp only at hx
    split at hx
    · simp at hx; subst hx; omega
    · split at hx
      · simp at hx; rcases hx with rfl | rfl <;> rw [toNat_ofNat (by omega)] <;> omega
      · split at hx
        · simp at hx; rcases hx with rfl | rfl | rfl <;> rw [toNat_ofNat (by omega)] <;> omega
        · simp at hx; rcases hx with rfl | rfl | rfl | rfl <;> rw [toNat_ofNat (by omega)] <;> omega
  rw [C25_iso_8859_1 _ hbytes]
  intro h
  have hlen : (strEncode s).length = s.length := by
    have := congrArg (Option.map List.length) h
    simpa using this
  have h1 : ∀ c : Char, 1 ≤ (encodeChar c).length := by
    intro c; unfold encodeChar; simp only; split; · simp
    split; · simp
    split <;> simp
  have h2 : ∀ c : Char, 128 ≤ c.toNat → 2 ≤ (encodeChar c).length := by
    intro c hc; unfold encodeChar; simp only; rw [if_neg (by omega)]
    split; · simp
    split <;> simp
  have h3 : ∀ l : Str, l.length ≤ (strEncode l).length := by
    intro l
    induction l with
    | nil => simp
    | cons c r ih => rw [strEncode, List.flatMap_cons, List.length_append]; have := h1 c; simp only [List.length_cons]; unfold strEncode at ih; omega
  obtain ⟨c, hc, hc'⟩ := hs
  obtain ⟨p, q, rfl⟩ := List.append_of_mem hc
  rw [strEncode, List.flatMap_append, List.flatMap_cons] at hlen
  simp only [List.length_append, List.length_cons] at hlen
  have a1 := h3 p
  have a2 := h3 q
  have a3 := h2 c hc'
  unfold strEncode at a1 a2
  omega

/-- C58 is false: the text `é` with the encoding iso-8859-1 reaches the parser as two other characters. -/
theorem C58_violated_witness : (toUtf8 (strEncode [Char.ofNat 0xE9]) (c! "iso-8859-1")).map (fun t => utf8Decode (t.map Char.toNat)) =
    .ok (some [0xC3, 0xA9]) := by decide

end Verif
