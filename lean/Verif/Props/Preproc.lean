import Verif.ReachLemmas
/-!
# Properties of preprocessing runs: C01, C02, C11, C12, C17, C18, C20, C48

Observables: `verilogPpStr` / `verilogPp` give the result (text or exception) and the state of the convertor (macro
database) afterwards. `Env` (language, ANTLR parser, file system) is arbitrary in every theorem.
-/
namespace Verif
open Spec

/-! ## an environment for the examples -/

/-- Part of a path in front of the last `/`. -/
def demoParent (p : Str) : Str := ((p.reverse.dropWhile (· != '/')).drop 1).reverse

/-- Environment with given parse trees and files. A text that is not in the table is one piece of code. -/
def tableEnv (lang : Nat) (trees : List (Str × Nodes)) (files : List (Str × Str)) : Env where
  lang := lang
  parse t := match trees.find? (fun p => p.1 == t) with
    | some p => .tree p.2
    | none => .tree (.cons (.code 1 t) .nil)
  fileExists f := files.any (fun p => p.1 == f)
  readFile f := match files.find? (fun p => p.1 == f) with
    | some p => .ok p.2
    | none => .error (c! "No such file")
  join d n := d ++ c! "/" ++ n
  parent := demoParent

/-- Macro without parameters as a database entry. -/
def textMacro (name text : Str) (persistent : Bool) : Str × DbItem :=
  (name, ⟨.user ⟨name, false, [], if text = [] then [] else [.lit text]⟩, persistent⟩)

/-- a call without arguments -/
def call0 (line : Nat) (name : Str) : Node := .call ⟨line, 0, name, none⟩

/-! ## C01 -/

/-- **C01** (string): whatever the parser, the file system, the macro database and the text are: the nesting of runs
stays below the bound 230 (so the run ends), and a larger bound gives the same result and state. -/
theorem C01_terminates_str (env : Env) (db : MacroDB) (incdirs : List Str) (text enc : Str) :
    (verilogPpStr env db incdirs text enc).1 ≠ .error .fuel ∧
    ∀ n, FUEL ≤ n → runStr (run env n) text enc (OutBuf.new 0) (initState env db incdirs) =
      runStr (run env FUEL) text enc (OutBuf.new 0) (initState env db incdirs) := by
  have h := (runStr_res (run_res env FUEL) text enc (OutBuf.new 0) (initState env db incdirs)).1
  have hf := h.noFuel (mu_init env db incdirs)
  constructor
  · unfold verilogPpStr
    rcases hx : runStr (run env FUEL) text enc (OutBuf.new 0) (initState env db incdirs) with ⟨e | o, s⟩
    · rw [hx] at hf
      rw [M.bind_error hx]
      simpa using hf
    · rw [M.bind_ok hx]; simp
  · intro n hn
    exact runStr_mono (run_mono env hn) text enc _ _ hf

/-- **C01** (file). -/
theorem C01_terminates_file (env : Env) (db : MacroDB) (incdirs : List Str) (path enc : Str) :
    (verilogPp env db incdirs path enc).1 ≠ .error .fuel ∧
    ∀ n, FUEL ≤ n → runFile env (run env n) path enc (OutBuf.new 0) (initState env db incdirs) =
      runFile env (run env FUEL) path enc (OutBuf.new 0) (initState env db incdirs) := by
  have h := (runFile_res env (run_res env FUEL) path enc (OutBuf.new 0) (initState env db incdirs) (by simp [initState])).1
  have hf := h.noFuel (by have := mu_init env db incdirs; omega)
  constructor
  · unfold verilogPp
    rcases hx : runFile env (run env FUEL) path enc (OutBuf.new 0) (initState env db incdirs) with ⟨e | o, s⟩
    · rw [hx] at hf
      rw [M.bind_error hx]
      simpa using hf
    · rw [M.bind_ok hx]; simp
  · intro n hn
    exact runFile_mono env (run_mono env hn) path enc _ _ hf

/-- a macro that expands to itself -/
example : (verilogPpStr (tableEnv 8 [(c! "`M", .cons (call0 1 (c! "M")) .nil)] [])
    [textMacro (c! "M") (c! "`M") true] [] (c! "`M") (c! "utf-8")).1 ≠ .error .fuel :=
  (C01_terminates_str _ _ _ _ _).1

/-! ## C02 -/

/-- The parse tree of a text without directives: its tokens in order, each with the line it starts at. -/
def codes : Nat → List Str → Nodes
  | _, [] => .nil
  | l, t :: r => .cons (.code l t) (codes (l + nl t) r)

private theorem setLine_same (o : OutBuf) (n : W) (h : o.inputLine = n) (hm : o.map ≠ []) :
    ∃ o', o.setLine n = .ok o' ∧ o'.text = o.text ∧ o'.inputLine = n ∧ o'.map ≠ [] := by
  unfold OutBuf.inputLine at h
  unfold OutBuf.setLine
  rw [h]
  simp only [BitVec.sub_self]
  rw [if_neg (by simp)]
  cases hl : o.map.getLast? with
  | none => simp at hl; exact absurd hl hm
  | some last =>
    refine ⟨_, rfl, rfl, ?_, by simp⟩
    simp [OutBuf.inputLine, ← h]

private theorem visit_codes (env : Env) (rec : Rec) (ctx : Ctx) (toks : List Str) (l : Nat) (o : OutBuf) (s : PState)
    (h : o.inputLine = line0 l) (hm : o.map ≠ []) :
    ∃ o', visitNodes env rec ctx (codes l toks) o s = (.ok o', s) ∧ o'.text = o.text ++ toks.flatten := by
  induction toks generalizing l o with
  | nil => exact ⟨o, by simp [codes, visitNodes], by simp⟩
  | cons t r ih =>
    obtain ⟨o1, h1, h2, h3, h4⟩ := setLine_same o _ h hm
    obtain ⟨o2, e1, e2⟩ := ih (l + nl t) (o1.put t) (by
      simp only [OutBuf.put, OutBuf.inputLine, line0, BitVec.ofNat_add] at h3 ⊢
      generalize BitVec.ofNat 64 l = a at *
      generalize BitVec.ofNat 64 (nl t) = b at *
      bv_omega) h4
    refine ⟨o2, ?_, by simp [e2, OutBuf.put, h2]⟩
    rw [codes, visitNodes, visitNode]
    have hx : (do let o ← M.lift (o.setLine (line0 l)); return o.put t : M OutBuf) s = (.ok (o1.put t), s) := by
      rw [M.bind_ok (show M.lift _ s = _ from by rw [M.lift_apply, h1])]; rfl
    rw [M.bind_ok hx]
    exact e1

/-- **C02** (string): a text whose tokens are all plain code is reproduced (in UTF-8), for any number of tokens and lines,
any database and include directories; the state does not change. -/
theorem C02_verbatim_str (env : Env) (db : MacroDB) (incdirs : List Str) (text enc u : Str) (toks : List Str)
    (henc : toUtf8 text enc = .ok u) (hp : env.parse u = .tree (codes 1 toks)) (hcover : toks.flatten = u)
    (h1 : 1 ≤ env.lang) (h2 : env.lang ≤ 8) :
    verilogPpStr env db incdirs text enc = (.ok u, initState env db incdirs) := by
  obtain ⟨o, e1, e2⟩ := visit_codes env (run env (FUEL - 1)) ⟨c! "<string>", false, enc⟩ toks 1
    ⟨[], [⟨0, c! "<string>", 0⟩], 0, 0, 0⟩ (initState env db incdirs) (by decide) (by simp)
  unfold verilogPpStr runStr
  rw [M.bind_ok (s' := initState env db incdirs) (a := o)]
  · simp [e2, hcover]
  · rw [M.bind_ok (M.get_apply _)]
    have hset : (OutBuf.new 0).setFileLine ((initState env db incdirs).incStack.getLast?.getD (c! "<string>")) 0 =
      .ok (⟨[], [⟨0, c! "<string>", 0⟩], 0, 0, 0⟩ : OutBuf) := rfl
    rw [M.bind_lift hset]
    rw [M.bind_ok (show M.lift _ _ = _ from by rw [M.lift_apply, henc])]
    rw [show FUEL = (FUEL - 1) + 1 from rfl, run_tree hp h1 h2]
    exact e1

/-- **C02** (file). -/
theorem C02_verbatim_file (env : Env) (db : MacroDB) (incdirs : List Str) (path bytes enc u : Str) (toks : List Str)
    (hread : env.readFile path = .ok bytes)
    (henc : toUtf8 bytes enc = .ok u) (hp : env.parse u = .tree (codes 1 toks)) (hcover : toks.flatten = u)
    (h1 : 1 ≤ env.lang) (h2 : env.lang ≤ 8) :
    (verilogPp env db incdirs path enc).1 = .ok u := by
  generalize hadd : (!(incdirs.contains (env.parent path))) = add
  let s1 : PState := { initState env db incdirs with
      incdirs := if add then incdirs ++ [env.parent path] else incdirs
      incStack := [path] }
  obtain ⟨o, e1, e2⟩ := visit_codes env (run env (FUEL - 1)) ⟨path, add, enc⟩ toks 1
    ⟨[], [⟨0, path, 0⟩], 0, 0, 0⟩ s1 (by simp [OutBuf.inputLine, line0]) (by simp)
  unfold verilogPp runFile
  have key : (do
      let s ← M.get
      runFileIn env (run env FUEL) path enc (!(s.incdirs.contains (env.parent path))) (OutBuf.new 0) : M OutBuf)
      (initState env db incdirs) = (.ok o, { s1 with
        incStack := s1.incStack.dropLast
        incdirs := if add then s1.incdirs.dropLast else s1.incdirs }) := by
    rw [M.bind_ok (M.get_apply _)]
    rw [show (initState env db incdirs).incdirs = incdirs from rfl, hadd]
    unfold runFileIn
    rw [M.bind_ok (M.modify_apply _ _)]
    rw [M.bind_ok (show M.lift _ _ = _ from by rw [M.lift_apply, hread]; rfl)]
    rw [M.bind_ok (show M.lift _ _ = _ from by rw [M.lift_apply, henc])]
    have hset : (OutBuf.new 0).setFileLine path 0 = .ok (⟨[], [⟨0, path, 0⟩], 0, 0, 0⟩ : OutBuf) := by
      simp [OutBuf.setFileLine, OutBuf.new]
    rw [M.bind_lift hset]
    rw [show FUEL = (FUEL - 1) + 1 from rfl, run_tree hp h1 h2]
    refine (M.bind_ok e1).trans ?_
    rw [M.bind_ok (M.modify_apply _ _)]
    rfl
  rw [M.bind_ok key]
  simp [e2, hcover]

example : let toks := [c! "module m;\n\n", c! "// c\n", c! "endmodule\n"]
    (tableEnv 8 [(toks.flatten, codes 1 toks)] []).parse toks.flatten = .tree (codes 1 toks) := by rfl
example : codes 1 [c! "a\n\nb", c! "\"s\""] = .cons (.code 1 (c! "a\n\nb")) (.cons (.code 3 (c! "\"s\"")) .nil) := rfl

/-! ## C11 -/

/-- Children of a call with the given argument slots (`none`: nothing between the separators). -/
def argToks (slots : List (Option Str)) : List ArgTok :=
  (([ArgTok.comma]).intercalate (slots.map (fun o => o.toList.map ArgTok.value))) ++ [ArgTok.rp]

/-- **C11**: the arguments of a call `M(s1, ..., sn)`: `M()` has none, otherwise one per slot, trimmed, the empty text
for an omitted one. -/
theorem C11_arguments (slots : List (Option Str)) (hne : slots ≠ []) :
    parseMacroArgs (argToks slots) true false [] =
      if slots = [none] then [] else slots.map (fun o => trim (o.getD []) wsChars) := by
  have trim_nil : trim [] wsChars = [] := by decide
  -- after a comma
  have key : ∀ (r : List (Option Str)) (o : Option Str) (acc : List Str),
      parseMacroArgs (argToks (o :: r)) true true acc = acc ++ (o :: r).map (fun o => trim (o.getD []) wsChars) := by
    intro r
    induction r with
    | nil =>
      intro o acc
      cases o <;> simp [argToks, List.intercalate, parseMacroArgs, trim_nil]
    | cons p r ih =>
      intro o acc
      have hcons : argToks (o :: p :: r) = o.toList.map ArgTok.value ++ ArgTok.comma :: argToks (p :: r) := by
        simp [argToks, List.intercalate]
      rw [hcons]
      cases o with
      | none => simp [parseMacroArgs, ih, trim_nil]
      | some v => simp [parseMacroArgs, ih]
  cases slots with
  | nil => exact absurd rfl hne
  | cons o r =>
    cases r with
    | nil => cases o <;> simp [argToks, List.intercalate, parseMacroArgs]
    | cons p r =>
      rw [if_neg (by simp)]
      have hcons : argToks (o :: p :: r) = o.toList.map ArgTok.value ++ ArgTok.comma :: argToks (p :: r) := by
        simp [argToks, List.intercalate]
      rw [hcons]
      cases o with
      | none => simp [parseMacroArgs, key, trim_nil]
      | some v => simp [parseMacroArgs, key]

example : parseMacroArgs (argToks [some (c! " a "), none, some (c! "f(x, y)")]) true false [] =
    [c! "a", [], c! "f(x, y)"] := by decide
example : parseMacroArgs (argToks [none]) true false [] = [] := by decide
example : parseMacroArgs (argToks [none, none]) true false [] = [[], []] := by decide

/-! ## C12 -/

/-- the constructs that call a macro -/
def callOf : Node → Option Call
  | .call c => some c
  | .incl _ _ (.call c) => some c
  | _ => none

private theorem undefined_fails {env : Env} {c : Conf} {nd : Node} {r : Nodes} {cl : Call} (hc : c.ns = .cons nd r)
    (hcall : callOf nd = some cl) (hundef : ¬ Defined c.s.db cl.name) :
    Fails (result env c) (inputError c.ctx.src cl.line cl.col (cl.name ++ c! " is not defined")) := by
  obtain ⟨n, ctx, ns, out, s⟩ := c
  simp only at hc hundef
  subst hc
  have hx : Fails (expandCall env (run env n) ctx cl out s) (inputError ctx.src cl.line cl.col (cl.name ++ c! " is not defined")) := by
    unfold expandCall
    rw [M.bind_ok (M.get_apply s), find_none_iff_not.2 hundef]
    rfl
  unfold result
  simp only [visitNodes]
  apply Fails.bind
  cases nd with
  | call c' => simp [callOf] at hcall; subst hcall; rw [visitNode]; exact Fails.bind hx
  | incl l k a =>
    cases a with
    | str q => simp [callOf] at hcall
    | call c' =>
      simp [callOf] at hcall; subst hcall; rw [visitNode]; unfold visitInclude
      apply Fails.bind
      exact hx
  | _ => simp [callOf] at hcall

/-- **C12** (string): every macro call which is reached anywhere in the run (in selected branches, texts of macros,
included files) and whose macro is not defined at this moment makes the whole run fail with this ParseException. -/
theorem C12_undefined_str (env : Env) (db : MacroDB) (incdirs : List Str) (text enc : Str) (c0 c : Conf) (ls : List Nat)
    (nd : Node) (r : Nodes) (cl : Call) (h0 : StartStr env db incdirs text enc c0) (hr : Reached env c0 ls c)
    (hc : c.ns = .cons nd r) (hcall : callOf nd = some cl) (hundef : ¬ Defined c.s.db cl.name) :
    (verilogPpStr env db incdirs text enc).1 =
      .error (inputError c.ctx.src cl.line cl.col (cl.name ++ c! " is not defined")) :=
  h0.fails (hr.fails (undefined_fails hc hcall hundef))

/-- **C12** (file). -/
theorem C12_undefined_file (env : Env) (db : MacroDB) (incdirs : List Str) (path enc : Str) (c0 c : Conf) (ls : List Nat)
    (nd : Node) (r : Nodes) (cl : Call) (h0 : StartFile env db incdirs path enc c0) (hr : Reached env c0 ls c)
    (hc : c.ns = .cons nd r) (hcall : callOf nd = some cl) (hundef : ¬ Defined c.s.db cl.name) :
    (verilogPp env db incdirs path enc).1 =
      .error (inputError c.ctx.src cl.line cl.col (cl.name ++ c! " is not defined")) :=
  h0.fails (hr.fails (undefined_fails hc hcall hundef))

/-- **C12** as stated in the list: after a successful run every reached call had a defined macro. -/
theorem C12_success_all_defined (env : Env) (db : MacroDB) (incdirs : List Str) (text enc res : Str) (c0 c : Conf)
    (ls : List Nat) (nd : Node) (r : Nodes) (cl : Call) (h0 : StartStr env db incdirs text enc c0)
    (hr : Reached env c0 ls c) (hc : c.ns = .cons nd r) (hcall : callOf nd = some cl)
    (hok : (verilogPpStr env db incdirs text enc).1 = .ok res) : Defined c.s.db cl.name := by
  by_contra h
  rw [C12_undefined_str env db incdirs text enc c0 c ls nd r cl h0 hr hc hcall h] at hok
  simp at hok

/-- a point that is reached: the call `` `N `` inside of the text of the macro `M` -/
private def envMN : Env := tableEnv 8 [(c! "`M", .cons (call0 1 (c! "M")) .nil), (c! "x`N", .cons (.code 1 (c! "x"))
  (.cons (call0 1 (c! "N")) .nil))] []
private def dbM : MacroDB := [textMacro (c! "M") (c! "x`N") true]

example : ∃ c0 c ls nd r cl, StartStr envMN dbM [] (c! "`M") (c! "utf-8") c0 ∧ Reached envMN c0 ls c ∧
    c.ns = .cons nd r ∧ callOf nd = some cl ∧ ¬ Defined c.s.db cl.name ∧ ls = [1] := by
  refine ⟨_, _, _, _, _, _, ⟨c! "`M", .cons (call0 1 (c! "M")) .nil, _, rfl, rfl, rfl, by decide, by decide, rfl⟩,
    .same (.call .refl (.call (MacroRun.intro (item := (textMacro (c! "M") (c! "x`N") true).2) (r0 := c! "x`N") (r := c! "x`N")
      (t := .cons (.code 1 (c! "x")) (.cons (call0 1 (c! "N")) .nil)) (by decide) (by decide) (by decide) (by decide)
      (by decide) (by decide) (by decide) rfl rfl))) (.next rfl), rfl, rfl, ?_, rfl⟩
  rw [← find_none_iff_not]
  decide

/-! ## C17, C18 -/

/-- One call of the API with everything it depends on besides the database. -/
inductive Job
  | str (env : Env) (incdirs : List Str) (text enc : Str)
  | file (env : Env) (incdirs : List Str) (path enc : Str)

/-- Result and database afterwards. -/
def Job.exec (db : MacroDB) : Job → Except Exc Str × PState
  | .str env incdirs text enc => verilogPpStr env db incdirs text enc
  | .file env incdirs path enc => verilogPp env db incdirs path enc

/-- Database after a sequence of calls, successful or not. -/
def after (db : MacroDB) : List Job → MacroDB
  | [] => db
  | j :: r => after (j.exec db).2.db r

private theorem defaults_persistent (db : MacroDB) (lang : Nat) :
    (db.addDefaults lang).deleteNonPersistent = db.deleteNonPersistent := by
  unfold MacroDB.addDefaults
  split
  · rw [MacroDB.insert_persistent, MacroDB.insert_persistent]
  · rfl

private theorem dnp_idem (db : MacroDB) : db.deleteNonPersistent.deleteNonPersistent = db.deleteNonPersistent := by
  simp [MacroDB.deleteNonPersistent, List.filter_filter]

private theorem init_uniq (env : Env) {db : MacroDB} (incdirs : List Str) (h : db.Uniq) : (initState env db incdirs).db.Uniq := by
  unfold initState MacroDB.addDefaults
  simp only
  split
  · exact ((h.filter _).insert _ _).insert _ _
  · exact h.filter _

private theorem bind_text_state {m : M OutBuf} {s : PState} : ((m >>= fun o => (return o.text : M Str)) s).2 = (m s).2 := by
  rcases hm : m s with ⟨e | o, s'⟩
  · rw [M.bind_error hm]
  · rw [M.bind_ok hm]; rfl

theorem exec_persist (j : Job) {db : MacroDB} (h : db.Uniq) :
    (j.exec db).2.db.Uniq ∧ (j.exec db).2.db.deleteNonPersistent = db.deleteNonPersistent := by
  cases j with
  | str env incdirs text enc =>
    have hr := (runStr_res (run_res env FUEL) text enc (OutBuf.new 0) (initState env db incdirs)).1
    have hu := init_uniq env incdirs h
    simp only [Job.exec, verilogPpStr, bind_text_state]
    refine ⟨hr.uniq hu, (hr.persist hu).trans ?_⟩
    simp only [initState]
    rw [defaults_persistent, dnp_idem]
  | file env incdirs path enc =>
    have hr := (runFile_res env (run_res env FUEL) path enc (OutBuf.new 0) (initState env db incdirs) (by simp [initState])).1
    have hu := init_uniq env incdirs h
    simp only [Job.exec, verilogPp, bind_text_state]
    refine ⟨hr.uniq hu, (hr.persist hu).trans ?_⟩
    simp only [initState]
    rw [defaults_persistent, dnp_idem]

private theorem after_persist (hist : List Job) {db : MacroDB} (h : db.Uniq) :
    (after db hist).Uniq ∧ (after db hist).deleteNonPersistent = db.deleteNonPersistent := by
  induction hist generalizing db with
  | nil => exact ⟨h, rfl⟩
  | cons j r ih =>
    obtain ⟨h1, h2⟩ := exec_persist j h
    obtain ⟨h3, h4⟩ := ih h1
    exact ⟨h3, h4.trans h2⟩

private theorem mem_dnp {db : MacroDB} {k : Str} {v : DbItem} : (k, v) ∈ db.deleteNonPersistent ↔ (k, v) ∈ db ∧ v.persistent = true := by
  simp [MacroDB.deleteNonPersistent]

/-- **C17**: after any history of runs, whatever they did and whether they failed or not, a macro set through the API
has the same definition, and no other macro became persistent. -/
theorem C17_api_macros_survive (db : MacroDB) (hu : db.Uniq) (hist : List Job) (k : Str) (v : DbItem) (hp : v.persistent = true) :
    (after db hist).find k = some v ↔ db.find k = some v := by
  obtain ⟨h1, h2⟩ := after_persist hist hu
  constructor
  · intro h
    apply hu.find_of_mem
    have := mem_dnp.2 ⟨MacroDB.find_some_mem h, hp⟩
    rw [h2] at this
    exact (mem_dnp.1 this).1
  · intro h
    apply h1.find_of_mem
    have := mem_dnp.2 ⟨MacroDB.find_some_mem h, hp⟩
    rw [← h2] at this
    exact (mem_dnp.1 this).1

/-- a database set through the API meets the hypothesis -/
example : MacroDB.Uniq [textMacro (c! "A") (c! "1") true, textMacro (c! "B") [] true] := by unfold MacroDB.Uniq; decide

/-- The macro is visible for the run itself, at every reached point, whatever happened in the run before. -/
theorem C17_visible_in_run (env : Env) (db : MacroDB) (hu : db.Uniq) (incdirs : List Str) (text enc : Str) (c0 c : Conf)
    (ls : List Nat) (k : Str) (v : DbItem) (hp : v.persistent = true) (hk : db.find k = some v)
    (h0 : StartStr env db incdirs text enc c0) (hr : Reached env c0 ls c) : c.s.db.find k = some v := by
  have key : c.s.db.Uniq ∧ c.s.db.deleteNonPersistent = db.deleteNonPersistent := by
    induction hr with
    | refl =>
      obtain ⟨_, _, _, -, -, -, -, -, rfl⟩ := h0
      exact ⟨init_uniq env incdirs hu, by simp only [initState]; rw [defaults_persistent, dnp_idem]⟩
    | @same ls c c' _ hs ih =>
      cases hs with
      | @next n ctx nd r out s o1 s1 hv =>
        have := visitNode_res env (run_res env n) ctx nd out s
        rw [hv] at this
        exact ⟨this.uniq ih.1, (this.persist ih.1).trans ih.2⟩
      | branch => exact ih
    | call _ hs ih =>
      cases hs with
      | call hm => obtain ⟨-⟩ := hm; exact ih
      | inclCall hm => obtain ⟨-⟩ := hm; exact ih
    | file _ hs ih =>
      cases hs with
      | @incl n ctx line col a r out s q s1 file c' hi hs hd hm hne =>
        obtain ⟨add, -⟩ := hm
        have : s1.db.Uniq ∧ s1.db.deleteNonPersistent = db.deleteNonPersistent := by
          cases a with
          | str q' => simp only [incText, M.pure_apply, Prod.mk.injEq] at hi; rw [← hi.2]; exact ih
          | call cl =>
            have hx := expandCall_res env (run_res env (n + 1)) ctx cl out s
            change expandCall env (run env (n + 1)) ctx cl out s = _ at hi
            rw [hi] at hx
            exact ⟨hx.uniq ih.1, (hx.persist ih.1).trans ih.2⟩
        split <;> exact this
  apply key.1.find_of_mem
  have := mem_dnp.2 ⟨MacroDB.find_some_mem hk, hp⟩
  rw [← key.2] at this
  exact (mem_dnp.1 this).1

/-- **C18**: the complete outcome of a run (text or exception, and state) after any history of earlier runs is the outcome
of the same run without the history. -/
theorem C18_isolated (db : MacroDB) (hu : db.Uniq) (hist : List Job) (j : Job) : j.exec (after db hist) = j.exec db := by
  have h := (after_persist hist hu).2
  cases j <;> simp only [Job.exec, verilogPpStr, verilogPp, initState, h]

/-- an earlier run that defines `X` does not make `X` visible later -/
example : (Job.str (tableEnv 8 [(c! "`X", .cons (call0 1 (c! "X")) .nil)] []) [] (c! "`X") (c! "utf-8")).exec
    (after [] [.str (tableEnv 8 [(c! "d", .cons (.define ⟨1, 0, c! "X", none, some (c! "1", [])⟩) .nil)] []) [] (c! "d") (c! "utf-8")])
    = (.error (inputError (c! "<string>") 1 0 (c! "X is not defined")),
       ⟨[(c! "__LINE__", ⟨.line, false⟩), (c! "__FILE__", ⟨.file, false⟩)], [], [], [], false⟩) := by decide

/-! ## C20 -/

/-- **C20** (string): after a successful run the include directories are those of the user and both stacks are empty. -/
theorem C20_balanced_str (env : Env) (db : MacroDB) (incdirs : List Str) (text enc res : Str)
    (h : (verilogPpStr env db incdirs text enc).1 = .ok res) :
    (verilogPpStr env db incdirs text enc).2.incdirs = incdirs ∧ (verilogPpStr env db incdirs text enc).2.incStack = [] ∧
    (verilogPpStr env db incdirs text enc).2.callStack = [] := by
  have hr := (runStr_res (run_res env FUEL) text enc (OutBuf.new 0) (initState env db incdirs)).1
  unfold verilogPpStr at h ⊢
  rw [bind_text_state]
  rcases hx : runStr (run env FUEL) text enc (OutBuf.new 0) (initState env db incdirs) with ⟨e | o, s⟩
  · rw [M.bind_error hx] at h; simp at h
  · rw [hx] at hr
    exact hr.stackEq o rfl

/-- **C20** (file). -/
theorem C20_balanced_file (env : Env) (db : MacroDB) (incdirs : List Str) (path enc res : Str)
    (h : (verilogPp env db incdirs path enc).1 = .ok res) :
    (verilogPp env db incdirs path enc).2.incdirs = incdirs ∧ (verilogPp env db incdirs path enc).2.incStack = [] ∧
    (verilogPp env db incdirs path enc).2.callStack = [] := by
  have hr := (runFile_res env (run_res env FUEL) path enc (OutBuf.new 0) (initState env db incdirs) (by simp [initState])).1
  unfold verilogPp at h ⊢
  rw [bind_text_state]
  rcases hx : runFile env (run env FUEL) path enc (OutBuf.new 0) (initState env db incdirs) with ⟨e | o, s⟩
  · rw [M.bind_error hx] at h; simp at h
  · rw [hx] at hr
    exact hr.stackEq o rfl

/-- **C20** for every construct of every text: a successfully processed construct (conditional, macro call, include, ...)
leaves directories and stacks as they were, only extends the output and does not renumber it. -/
theorem C20_balanced_construct (env : Env) (n : Nat) (ctx : Ctx) (nd : Node) (out o : OutBuf) (s s' : PState)
    (h : visitNode env (run env n) ctx nd out s = (.ok o, s')) :
    s'.incdirs = s.incdirs ∧ s'.incStack = s.incStack ∧ s'.callStack = s.callStack ∧ out.text <+: o.text ∧
      o.begin_ = out.begin_ := by
  have := visitNode_res env (run_res env n) ctx nd out s
  rw [h] at this
  obtain ⟨h1, h2, h3⟩ := this.stackEq o rfl
  obtain ⟨h4, h5, -⟩ := this.outOk o rfl
  exact ⟨h1, h2, h3, h5, h4⟩

/-- **C20**: at every point of the run the directories are those of the user, in order, followed only by directories of
files that are being processed (the file itself and those that include it). -/
theorem C20_visible_directories (env : Env) (db : MacroDB) (U : List Str) (path enc : Str) (c0 c : Conf) (ls : List Nat)
    (h0 : StartFile env db U path enc c0) (hr : Reached env c0 ls c) :
    ∃ ds, c.s.incdirs = U ++ ds ∧ ∀ d ∈ ds, ∃ f ∈ c.s.incStack, env.parent f = d :=
  (hr.dirInv h0.dirInv).only

/-! ## C48 -/

mutual
/-- Remove the directives without effect from a text. -/
def stripNode : Node → Node
  | .cond neg b => .cond neg (stripBranches b)
  | .code l s => .code l s
  | .define d => .define d
  | .call c => .call c
  | .undef n => .undef n
  | .undefineall => .undefineall
  | .incl l k a => .incl l k a
  | .lineDir a b => .lineDir a b
  | .nop => .nop
def stripNodes : Nodes → Nodes
  | .nil => .nil
  | .cons .nop r => stripNodes r
  | .cons n r => .cons (stripNode n) (stripNodes r)
def stripBranches : Branches → Branches
  | .endif => .endif
  | .els l g => .els l (stripNodes g)
  | .elif c l g r => .elif c l (stripNodes g) (stripBranches r)
end

/-- The environment in which these directives are removed from every text. -/
def stripEnv (env : Env) : Env :=
  { env with parse := fun t => match env.parse t with
      | .tree t => .tree (stripNodes t)
      | o => o }

private theorem searchInc_strip (env : Env) (q : Str) (l : List Str) : searchInc (stripEnv env) q l = searchInc env q l := by
  induction l with
  | nil => rfl
  | cons d r ih => simp only [searchInc, ih]; rfl

set_option linter.unusedSectionVars false

section
variable {env : Env} {rec rec' : Rec} (h : rec' = rec)
include h

mutual
private theorem strip_node (ctx : Ctx) (nd : Node) (out : OutBuf) :
    visitNode (stripEnv env) rec' ctx (stripNode nd) out = visitNode env rec ctx nd out := by
  cases nd with
  | cond neg b => rw [stripNode, visitNode, visitNode]; exact strip_branches ctx neg b out
  | code l s => rw [stripNode, visitNode, visitNode]
  | define d => rw [stripNode, visitNode, visitNode]
  | call c => rw [stripNode, visitNode, visitNode, h]; rfl
  | undef n => rw [stripNode, visitNode, visitNode]
  | undefineall => rw [stripNode, visitNode, visitNode]
  | incl l k a =>
    rw [stripNode, visitNode, visitNode, h]
    unfold visitInclude
    have : incText (stripEnv env) rec ctx out a = incText env rec ctx out a := by cases a <;> rfl
    rw [this]
    simp only [searchInc_strip]
    rfl
  | lineDir a b => rw [stripNode, visitNode, visitNode]
  | nop => rw [stripNode, visitNode, visitNode]
termination_by sizeOf nd
private theorem strip_nodes (ctx : Ctx) (ns : Nodes) (out : OutBuf) :
    visitNodes (stripEnv env) rec' ctx (stripNodes ns) out = visitNodes env rec ctx ns out := by
  cases ns with
  | nil => rw [stripNodes, visitNodes, visitNodes]
  | cons nd r =>
    have ih := strip_nodes ctx r
    have hn := strip_node ctx nd out
    cases nd with
    | nop =>
      rw [stripNodes, ih]
      funext s
      rw [visitNodes, visitNode]
      rfl
    | _ =>
      rw [stripNodes, visitNodes, visitNodes, hn] <;> simp [ih]
termination_by sizeOf ns
private theorem strip_branches (ctx : Ctx) (neg : Bool) (b : Branches) (out : OutBuf) :
    visitBranches (stripEnv env) rec' ctx neg (stripBranches b) out = visitBranches env rec ctx neg b out := by
  cases b with
  | endif => rw [stripBranches, visitBranches, visitBranches]
  | els l g =>
    rw [stripBranches, visitBranches, visitBranches]
    have := strip_nodes ctx g
    simp only [this]
  | elif c l g r =>
    rw [stripBranches, visitBranches, visitBranches]
    have := strip_nodes ctx g
    have h2 := strip_branches ctx neg r out
    simp only [this, h2]
termination_by sizeOf b
end
end

private theorem strip_run (env : Env) (n : Nat) : run (stripEnv env) n = run env n := by
  induction n with
  | zero => rfl
  | succ n ih =>
    funext ctx text out
    rw [run, run]
    have hpar : (stripEnv env).parse text = match env.parse text with
      | .tree t => .tree (stripNodes t)
      | o => o := rfl
    have hlang : (stripEnv env).lang = env.lang := rfl
    rw [hpar, hlang]
    cases hp : env.parse text with
    | badInput m => rfl
    | syntaxErrors e r => rfl
    | tree t =>
      simp only
      rw [strip_nodes ih ctx t out]

/-- **C48**: removing the directives without effect from the source, from all texts of macros and from all included files
changes neither the result nor the state. -/
theorem C48_transparent (env : Env) (db : MacroDB) (incdirs : List Str) (x enc : Str) :
    verilogPpStr (stripEnv env) db incdirs x enc = verilogPpStr env db incdirs x enc ∧
    verilogPp (stripEnv env) db incdirs x enc = verilogPp env db incdirs x enc := by
  constructor
  · unfold verilogPpStr; rw [strip_run]; rfl
  · unfold verilogPp; rw [strip_run]; rfl

example : stripNodes (.cons (.code 1 (c! "a")) (.cons .nop (.cons (.cond false (.els 2 (.cons .nop .nil))) .nil))) =
    .cons (.code 1 (c! "a")) (.cons (.cond false (.els 2 .nil)) .nil) := rfl

end Verif
