import Verif.PpSemLemmas
/-!
# The visitors follow the rules of `Sem`
-/
namespace Verif.Pp
open Verif.Spec Verif.Spec.Pp

/-- The file system of the specification is the one of the environment. -/
structure FilesOf (env : Env) (enc : Str) (fs : Files) : Prop where
  isFile : fs.isFile = env.fileExists
  join : fs.join = env.join
  parent : fs.parent = env.parent
  read : ∀ p t, fs.read p = some t → ∃ b, env.readFile p = .ok b ∧ toUtf8 b enc = .ok t

/-- State of the preprocessor at a place. -/
structure Inv (fs : Files) (enc : Str) (pl : Place) (w : World) (ctx : Ctx) (s : PState) : Prop where
  abs : Abs s.db w.macros
  ub : s.ub = w.undefs
  calls : s.callStack.length = pl.calls
  files : s.incStack.length = pl.files
  dirs : s.incdirs = fs.dirs ++ pl.here.toList
  ctx : pl.calls = 0 → ctx.added = pl.here.isSome ∧ ctx.enc = enc

/-- The result of a visit. -/
def Res1 (fs : Files) (enc : Str) (pl : Place) (c : List Str) (w' : World) (ctx : Ctx) (out : OutBuf) (r : Except Exc OutBuf × PState) : Prop :=
  ∃ out' s' t, r = (.ok out', s') ∧ out'.text = out.text ++ t ∧ Spaced c t ∧ out'.map ≠ [] ∧ Inv fs enc pl w' ctx s'

/-- What the visitors do with `x`. -/
def Holds (env : Env) (fs : Files) (enc : Str) (pl : Place) (w : World) (x : Todo) (c : List Str) (w' : World) : Prop :=
  ∀ fuel ctx s, 229 ≤ fuel + pl.calls + pl.files → pl.calls ≤ 128 → pl.files ≤ 101 → Inv fs enc pl w ctx s →
    match x with
    | .items is => ∀ p out, out.map ≠ [] → Res1 fs enc pl c w' ctx out (visitNodes env (run env fuel) ctx (is.tree p) out s)
    | .item i => ∀ p out, out.map ≠ [] → Res1 fs enc pl c w' ctx out (visitNode env (run env fuel) ctx (i.node p) out s)
    | .rest r => ∀ p out neg, (neg = true → r.noElif = true) → out.map ≠ [] →
        Res1 fs enc pl c w' ctx out (visitBranches env (run env fuel) ctx neg (r.tree p) out s)
    | .text r => ∀ call b, ∃ t s', rescan (run env fuel) ctx call b r s = (.ok t, s') ∧ Spaced c t ∧ '`' ∉ t ∧ Inv fs enc pl w' ctx s'

section
variable {env : Env} {fs : Files} {enc : Str}

theorem code_res {pl : Place} {w : World} {ctx : Ctx} {s : PState} (hi : Inv fs enc pl w ctx s) (rec : Rec) (line : Nat) (x : Str)
    (out : OutBuf) (hm : out.map ≠ []) : Res1 fs enc pl [x] w ctx out (visitNode env rec ctx (.code line x) out s) := by
  obtain ⟨o, k, h1, h2, h3⟩ := setLine_text out (line0 line) hm
  refine ⟨o.put x, s, List.replicate k '\n' ++ x, ?_, ?_, .single k x, h3, hi⟩
  · rw [visitNode, M.bind_lift h1]; rfl
  · simp [OutBuf.put, h2]

theorem quiet_res {pl : Place} {w : World} {ctx : Ctx} {s : PState} (hi : Inv fs enc pl w ctx s) {r : Except Exc OutBuf × PState}
    (out : OutBuf) (hm : out.map ≠ []) (hr : r = (.ok out, s)) : Res1 fs enc pl [] w ctx out r :=
  ⟨out, s, [], hr, by simp, .nil 0, hm, hi⟩

theorem Inv.withDb {pl : Place} {w w' : World} {ctx : Ctx} {s : PState} (hi : Inv fs enc pl w ctx s) {db : MacroDB} {u : Bool}
    (ha : Abs db w'.macros) (hu : u = w'.undefs) : Inv fs enc pl w' ctx { s with db := db, ub := u } :=
  ⟨ha, hu, hi.calls, hi.files, hi.dirs, hi.ctx⟩

theorem define_res {pl : Place} {w : World} {ctx : Ctx} {s : PState} (hi : Inv fs enc pl w ctx s) (rec : Rec) {lang : Nat} {name : Str}
    {tail : DefTail} (hn : w.macros name = none) (hok : tail.ok lang = true) (hs : tail.oneLineStrings = true)
    (hd : ((tail.params.getD []).map Param.name).Nodup) (hb : endsInString false none tail.macroText = false) (l c : Nat)
    (out : OutBuf) (hm : out.map ≠ []) :
    Res1 fs enc pl [] (w.set name (some (.user tail.params tail.macroText false))) ctx out
      (visitNode env rec ctx (.define ⟨l, c, name, tail.params, tail.node⟩) out s) := by
  have hf := params_formalsOk hok hd
  obtain ⟨m, hnew⟩ := new_ok name tail.params tail.macroText hf hb
  refine quiet_res (s := { s with db := s.db.insert name ⟨.user m, false⟩ })
    (hi.withDb (hi.abs.insert hn (.user hnew hf hb)) hi.ub) out hm ?_
  rw [visitNode]
  refine (M.bind_ok (s' := { s with db := s.db.insert name ⟨.user m, false⟩ }) (a := ()) ?_).trans rfl
  unfold visitDefine
  rw [M.bind_lift (define_text hok hs l c name)]
  simp only [hnew]
  rfl

theorem redefine_res {pl : Place} {w : World} {ctx : Ctx} {s : PState} (hi : Inv fs enc pl w ctx s) (rec : Rec) {lang : Nat} {name : Str}
    {tail : DefTail} {f : Bool} (hn : w.macros name = some (.user tail.params tail.macroText f)) (hok : tail.ok lang = true)
    (hs : tail.oneLineStrings = true) (l c : Nat) (out : OutBuf) (hm : out.map ≠ []) :
    Res1 fs enc pl [] w ctx out (visitNode env rec ctx (.define ⟨l, c, name, tail.params, tail.node⟩) out s) := by
  obtain ⟨it, hfind, hr⟩ := hi.abs.found hn
  cases hr with
  | @user _ _ _ name' m hnew hf hb =>
    obtain ⟨m', hnew'⟩ := new_ok name tail.params tail.macroText hf hb
    refine quiet_res hi out hm ?_
    rw [visitNode]
    refine (M.bind_ok (s' := s) (a := ()) ?_).trans rfl
    unfold visitDefine
    rw [M.bind_lift (define_text hok hs l c name)]
    simp only [hnew']
    show (_, _) = (_, _)
    simp [MacroDB.insert, hfind]

theorem undef_res {pl : Place} {w : World} {ctx : Ctx} {s : PState} (hi : Inv fs enc pl w ctx s) (rec : Rec) {name : Str}
    {e : Entry} (hn : w.macros name = some e) (he : e.fixed = false) (out : OutBuf) (hm : out.map ≠ []) :
    Res1 fs enc pl [] { w.set name none with undefs := true } ctx out (visitNode env rec ctx (.undef name) out s) := by
  obtain ⟨it, hfind, hr⟩ := hi.abs.found hn
  rw [hr.fixed] at he
  refine quiet_res (s := { s with db := s.db.erase name, ub := true })
    (hi.withDb (w' := { w.set name none with undefs := true }) (hi.abs.erase name) rfl) out hm ?_
  rw [visitNode]
  refine (M.bind_ok (s' := { s with db := s.db.erase name, ub := true }) (a := ()) ?_).trans rfl
  unfold visitUndef
  rw [M.modify_apply]
  simp [hfind, he]

theorem undef_none {pl : Place} {w : World} {ctx : Ctx} {s : PState} (hi : Inv fs enc pl w ctx s) (rec : Rec) {name : Str}
    (hn : w.macros name = none ∨ ∃ e, w.macros name = some e ∧ e.fixed = true) (out : OutBuf) (hm : out.map ≠ []) :
    Res1 fs enc pl [] w ctx out (visitNode env rec ctx (.undef name) out s) := by
  refine quiet_res hi out hm ?_
  rw [visitNode]
  refine (M.bind_ok (s' := s) (a := ()) ?_).trans rfl
  unfold visitUndef
  rw [M.modify_apply]
  rcases hn with hn | ⟨e, hn, he⟩
  · simp [hi.abs.notFound hn]
  · obtain ⟨it, hfind, hr⟩ := hi.abs.found hn
    rw [hr.fixed] at he
    simp [hfind, he]

theorem undefineall_res {pl : Place} {w : World} {ctx : Ctx} {s : PState} (hi : Inv fs enc pl w ctx s) (rec : Rec)
    (out : OutBuf) (hm : out.map ≠ []) :
    Res1 fs enc pl [] { w with macros := fun n => (w.macros n).filter Entry.fixed } ctx out (visitNode env rec ctx .undefineall out s) := by
  refine quiet_res (s := { s with db := s.db.deleteNonPersistent })
    (hi.withDb (w' := { w with macros := fun n => (w.macros n).filter Entry.fixed })
      (hi.abs.filter (fun p => p.2.persistent) (fun _ e => e.fixed) (fun _ _ _ hr => hr.fixed)) hi.ub) out hm ?_
  rw [visitNode]
  exact (M.bind_ok (M.modify_apply _ _)).trans rfl

/-- A call of a macro whose text is known. -/
theorem call_res {pl : Place} {w' : World} {ctx : Ctx} {s : PState} {fuel : Nat} {c : List Str} (call : Call) {it : DbItem} {e r : Str}
    (hfind : s.db.find call.name = some it) (out : OutBuf) (hfirst : firstReplacement it.obj call out = .ok e) (hp : Pasted env.lang e r)
    (ht : ∀ call b, ∃ t s', rescan (run env fuel) ctx call b r s = (.ok t, s') ∧ Spaced c t ∧ '`' ∉ t ∧ Inv fs enc pl w' ctx s')
    (hm : out.map ≠ []) : Res1 fs enc pl c w' ctx out (visitNode env (run env fuel) ctx (.call call) out s) := by
  obtain ⟨t, s', h1, h2, h3, h4⟩ := ht call out.begin_
  obtain ⟨o, k, k1, k2, k3⟩ := setLine_text out (line0 call.line) hm
  refine ⟨o.put t, s', List.replicate k '\n' ++ t, ?_, ?_, h2.lines k, k3, h4⟩
  · rw [visitNode]
    have : expandCall env (run env fuel) ctx call out s = (.ok t, s') := by
      unfold expandCall
      rw [M.bind_ok (M.get_apply s), hfind]
      simp only [hfirst]
      rw [M.bind_lift (paste_eq hp), M.bind_ok h1, M.lift_apply, unescape_eq h3]
    rw [M.bind_ok this, M.bind_lift k1]
    rfl
  · simp [OutBuf.put, k2]

theorem new_hasParams {name body : Str} {hp : Bool} {ps : List Param} {m : MacroDef} (h : MacroDef.new name hp ps body = .ok m) :
    m.hasParams = hp := by
  unfold MacroDef.new at h
  cases hf : parseBody name ps body with
  | error e => simp [hf, bind, Except.bind] at h
  | ok fr =>
    simp only [hf, bind, Except.bind, pure, Except.pure] at h
    cases h; rfl

theorem first_plain {name body : Str} {m : MacroDef} (hnew : MacroDef.new name false [] body = .ok m)
    (hb : endsInString false none body = false) (call : Call) (hc : call.args = none) (out : OutBuf) :
    firstReplacement (.user m) call out = .ok body := by
  have h := C06_no_params name body hb
  have hh : m.hasParams = false := by
    exact new_hasParams hnew
  unfold defineAndExpand at h
  rw [hnew] at h
  have h : m.replace [] false = .ok body := h
  simp [firstReplacement, hc, MacroObj.replace, h, bind, Except.bind, pure, Except.pure]

theorem first_text {name body src : Str} {toks : List ArgTok} {m : MacroDef} (hnew : MacroDef.new name false [] body = .ok m)
    (hb : endsInString false none body = false) (call : Call) (hc : call.args = some (toks, src)) (out : OutBuf) :
    firstReplacement (.user m) call out = .ok (body ++ src) := by
  have h := C06_no_params name body hb
  have hh : m.hasParams = false := by
    exact new_hasParams hnew
  unfold defineAndExpand at h
  rw [hnew] at h
  have h : m.replace [] false = .ok body := h
  simp [firstReplacement, hc, MacroObj.replace, MacroObj.requiresArgs, hh, h, bind, Except.bind, pure, Except.pure]

theorem first_args {name body src : Str} {ps : List Param} {args : List (List ArgPiece)} {vals : List Str} {m : MacroDef}
    (hnew : MacroDef.new name true ps body = .ok m) (hf : FormalsOk ps) (hb : endsInString false none body = false)
    (hv : bindArgs ps (actuals args) = some vals) (call : Call) (hc : call.args = some (argToks args, src)) (out : OutBuf) :
    firstReplacement (.user m) call out = .ok (expand stopCode ((ps.map Param.name).zip vals) body) := by
  have h := C06_simultaneous_substitution name ps body _ vals hf hb hv
  have hh : m.hasParams = true := by
    exact new_hasParams hnew
  unfold defineAndExpand at h
  rw [hnew] at h
  have h : m.replace (actuals args) true = .ok (expand stopCode ((ps.map Param.name).zip vals) body) := h
  simp [firstReplacement, hc, MacroObj.replace, MacroObj.requiresArgs, hh, args_actuals, h, bind, Except.bind, pure, Except.pure]

theorem search_res {env : Env} {fs : Files} (hfs : FilesOf env enc fs) {pl : Place} {file path : Str} (h : Includes fs pl file path) :
    searchInc env ('"' :: file ++ ['"']) (fs.dirs ++ pl.here.toList) = .ok (some path) := by
  obtain ⟨a, d, b, h1, h2, h3, h4⟩ := h
  rw [h1]
  rw [hfs.isFile] at h3 h4
  rw [hfs.join] at h2 h4
  have hq : stripQuotes ('"' :: file ++ ['"']) = .ok file := by
    unfold stripQuotes
    rw [if_neg (by simp), if_neg (by simp)]
    simp
  clear h1
  induction a with
  | nil =>
    unfold searchInc
    simp only [List.nil_append, hq, bind, Except.bind, pure, Except.pure]
    rw [← h2, if_pos h3]
  | cons e a ih =>
    rw [show (e :: a) ++ d :: b = e :: (a ++ d :: b) from rfl]
    unfold searchInc
    simp only [hq, bind, Except.bind, pure, Except.pure]
    rw [h4 e (by simp), if_neg (by simp)]
    exact ih fun x hx => h4 x (by simp [hx])

/-- The run on a file. -/
theorem file_res {env : Env} {fs : Files} {enc path : Str} {js : Items} (hfs : FilesOf env enc fs)
    (hparse : ∀ js : Items, js.ok env.lang [] = true → env.parse js.text = .tree (js.tree (1, 0)))
    (hl1 : 1 ≤ env.lang) (hl2 : env.lang ≤ 8) {pl : Place} {w w' : World} {c : List Str} (hc : pl.calls = 0) (hfl : pl.files ≤ 100)
    (hread : fs.read path = some js.text) (hok : js.ok env.lang [] = true)
    (ih : Holds env fs enc (pl.include fs path) w (.items js) c w') {fuel : Nat} (hfu : 229 ≤ fuel + pl.files) {s : PState}
    (ha : Abs s.db w.macros) (hu : s.ub = w.undefs) (hcs : s.callStack.length = 0) (his : s.incStack.length = pl.files) (hd : s.incdirs = fs.dirs) :
    ∃ o s', runFile env (run env fuel) path enc (OutBuf.new 0) s = (.ok o, s') ∧ Spaced c o.text ∧ Abs s'.db w'.macros ∧ s'.ub = w'.undefs ∧
      s'.callStack.length = 0 ∧ s'.incStack.length = pl.files ∧ s'.incdirs = fs.dirs := by
  obtain ⟨b, hb, hutf⟩ := hfs.read _ _ hread
  obtain ⟨o0, ho0, ht0, hm0⟩ := setFileLine_new 0 path 0
  obtain ⟨n, rfl⟩ : ∃ n, fuel = n + 1 := ⟨fuel - 1, by omega⟩
  let add := !(s.incdirs.contains (env.parent path))
  let s1 : PState := { s with
    incdirs := if add then s.incdirs ++ [env.parent path] else s.incdirs
    incStack := s.incStack ++ [path] }
  have hplace : (pl.include fs path).here = if add then some (env.parent path) else none := by
    simp only [Place.include, add, hd, hfs.parent]
    cases fs.dirs.contains (env.parent path) <;> rfl
  have hinv : Inv fs enc (pl.include fs path) w ⟨path, add, enc⟩ s1 := by
    refine ⟨ha, hu, by rw [show s1.callStack = s.callStack from rfl, hcs]; exact hc.symm, ?_, ?_, fun _ => ⟨?_, rfl⟩⟩
    · simp [s1, his, Place.include]
    · rw [hplace]
      simp only [s1, hd]
      cases add <;> simp
    · rw [hplace]; cases add <;> rfl
  obtain ⟨o, s2, t, e1, e2, e3, e4, e5⟩ := ih n ⟨path, add, enc⟩ s1 (by
      simp only [Place.include]; omega) (by simp [Place.include, hc]) (by simp [Place.include]; omega) hinv (1, 0) o0 hm0
  refine ⟨o, { s2 with
      incStack := s2.incStack.dropLast
      incdirs := if add then s2.incdirs.dropLast else s2.incdirs }, ?_, by rw [e2, ht0]; exact e3, e5.abs, e5.ub, ?_, ?_, ?_⟩
  · unfold runFile
    rw [M.bind_ok (M.get_apply s)]
    unfold runFileIn
    rw [M.bind_ok (M.modify_apply _ _)]
    rw [M.bind_lift (show (env.readFile path).mapError Exc.runtime = .ok b from by rw [hb]; rfl)]
    rw [M.bind_lift hutf, M.bind_lift ho0]
    rw [run_tree (hparse js hok) hl1 hl2]
    rw [M.bind_ok e1, M.bind_ok (M.modify_apply _ _)]
    rfl
  · have := e5.calls
    simp only [Place.include, hc] at this
    exact this
  · have := e5.files
    simp only [Place.include] at this
    simp [this]
  · have := e5.dirs
    rw [hplace] at this
    simp only [this]
    cases add <;> simp

theorem incl_res {env : Env} {fs : Files} {enc path name : Str} {js : Items} (hfs : FilesOf env enc fs)
    (hparse : ∀ js : Items, js.ok env.lang [] = true → env.parse js.text = .tree (js.tree (1, 0)))
    (hl1 : 1 ≤ env.lang) (hl2 : env.lang ≤ 8) {pl : Place} {w w' : World} {c : List Str} (hc : pl.calls = 0) (hfl : pl.files ≤ 100)
    (hinc : Includes fs pl name path) (hread : fs.read path = some js.text) (hok : js.ok env.lang [] = true)
    (ih : Holds env fs enc (pl.include fs path) w (.items js) c w') {fuel : Nat} (hfu : 229 ≤ fuel + pl.files) {ctx : Ctx} {s : PState}
    (hi : Inv fs enc pl w ctx s) (l k : Nat) (out : OutBuf) (hm : out.map ≠ []) :
    Res1 fs enc pl c w' ctx out (visitNode env (run env fuel) ctx (.incl l k (.str ('"' :: name ++ ['"']))) out s) := by
  obtain ⟨hadd, henc⟩ := hi.ctx hc
  have hcs : s.callStack.length = 0 := by rw [hi.calls, hc]
  rw [visitNode]
  unfold visitInclude
  simp only [incText]
  rw [M.bind_ok (M.pure_apply _ _), M.bind_ok (M.get_apply s), M.bind_lift (by rw [hi.dirs]; exact search_res hfs hinc)]
  simp only
  rw [if_neg (by rw [hi.files, includeDepthLimit]; omega)]
  unfold runInclude
  rw [M.bind_ok (M.get_apply s), hadd, henc]
  cases hh : pl.here with
  | none =>
    have hd : s.incdirs = fs.dirs := by rw [hi.dirs, hh]; simp
    obtain ⟨o, s', h1, h2, h3, h4, h5, h6, h7⟩ := file_res hfs hparse hl1 hl2 hc hfl hread hok ih hfu hi.abs hi.ub hcs hi.files hd
    refine ⟨out.append o, s', o.text, ?_, rfl, h2, append_map_ne hm, ⟨h3, h4, by rw [h5, hc], h6, by rw [h7, hh]; simp, hi.ctx⟩⟩
    simp only [Option.isSome_none, Bool.false_eq_true, if_false]
    rw [M.bind_ok h1]
    rfl
  | some d =>
    have hd : s.incdirs = fs.dirs ++ [d] := by rw [hi.dirs, hh]; rfl
    obtain ⟨o, s', h1, h2, h3, h4, h5, h6, h7⟩ := file_res (s := { s with incdirs := s.incdirs.dropLast }) hfs hparse hl1 hl2 hc hfl hread hok ih
      hfu hi.abs hi.ub hcs hi.files (by simp [hd])
    refine ⟨out.append o, { s' with incdirs := s'.incdirs ++ [d] }, o.text, ?_, rfl, h2, append_map_ne hm,
      ⟨h3, h4, by rw [hc]; exact h5, h6, by simp [h7, hh], hi.ctx⟩⟩
    simp only [Option.isSome_some, if_true]
    rw [show s.incdirs.getLast? = some d from by simp [hd]]
    simp only
    rw [M.bind_ok (M.modify_apply _ _), M.bind_ok h1, M.bind_ok (M.modify_apply _ _)]
    rfl

theorem group_res {pl : Place} {w' : World} {ctx : Ctx} {s : PState} {fuel : Nat} {c : List Str} {g : Items}
    (ih : ∀ p out, out.map ≠ [] → Res1 fs enc pl c w' ctx out (visitNodes env (run env fuel) ctx (g.tree p) out s))
    (line : Nat) (p : Nat × Nat) (out : OutBuf) (hm : out.map ≠ []) :
    Res1 fs enc pl c w' ctx out ((do
      let o ← M.lift (out.setLine (line0 line))
      visitNodes env (run env fuel) ctx (g.tree p) o : M OutBuf) s) := by
  obtain ⟨o, k, h1, h2, h3⟩ := setLine_text out (line0 line) hm
  obtain ⟨o', s', t, e1, e2, e3, e4, e5⟩ := ih p o h3
  refine ⟨o', s', List.replicate k '\n' ++ t, ?_, ?_, e3.lines k, e4, e5⟩
  · rw [M.bind_lift h1, e1]
  · rw [e2, h2, List.append_assoc]

theorem rescan_res {pl : Place} {w w' : World} {ctx : Ctx} {s : PState} {fuel : Nat} {c : List Str} {js : Items} {r : Str}
    (hparse : ∀ js : Items, js.ok env.lang [] = true → env.parse js.text = .tree (js.tree (1, 0)))
    (hl1 : 1 ≤ env.lang) (hl2 : env.lang ≤ 8) (hbt : '`' ∈ r) (hcl : pl.calls < 128) (ht : js.text = r) (hok : js.ok env.lang [] = true)
    (ih : Holds env fs enc pl.macro w (.items js) c w') (hc : ∀ x ∈ c, '`' ∉ x) (hfu : 229 ≤ fuel + pl.calls + pl.files) (hfl : pl.files ≤ 101)
    (hi : Inv fs enc pl w ctx s) (call : Call) (b : W) :
    ∃ t s', rescan (run env fuel) ctx call b r s = (.ok t, s') ∧ Spaced c t ∧ '`' ∉ t ∧ Inv fs enc pl w' ctx s' := by
  subst ht
  let name := s.incStack.getLast?.getD (c! "<string>")
  let s1 : PState := { s with callStack := s.callStack ++ [call.name] }
  obtain ⟨o0, ho0, ht0, hm0⟩ := setFileLine_new (b + line0 call.line) name 0
  obtain ⟨n, rfl⟩ : ∃ n, fuel = n + 1 := ⟨fuel - 1, by omega⟩
  have hinv : Inv fs enc pl.macro w ⟨name, false, c! "utf-8"⟩ s1 :=
    ⟨hi.abs, hi.ub, by simp [s1, Place.macro, hi.calls], hi.files, hi.dirs, fun h => by simp [Place.macro] at h⟩
  obtain ⟨o, s2, t, e1, e2, e3, e4, e5⟩ := ih n ⟨name, false, c! "utf-8"⟩ s1 (by simp only [Place.macro]; omega) (by simp only [Place.macro]; omega)
    hfl hinv (1, 0) o0 hm0
  refine ⟨o.text, { s2 with callStack := s2.callStack.dropLast }, ?_, by rw [e2, ht0]; exact e3, ?_, ?_⟩
  · unfold rescan
    rw [if_pos (by simpa using hbt), M.bind_ok (M.get_apply s), if_neg (by rw [hi.calls, maxCallStack]; omega)]
    rw [M.bind_ok (M.modify_apply _ _)]
    have : runStr (run env (n + 1)) js.text (c! "utf-8") (OutBuf.new (b + line0 call.line)) s1 = (.ok o, s2) := by
      unfold runStr
      rw [M.bind_ok (M.get_apply s1)]
      rw [show s1.incStack.getLast?.getD (c! "<string>") = name from rfl, M.bind_lift ho0,
        M.bind_lift (show toUtf8 js.text (c! "utf-8") = .ok js.text from rfl), run_tree (hparse js hok) hl1 hl2]
      exact e1
    rw [M.bind_ok this, M.bind_ok (M.modify_apply _ _)]
    rfl
  · rw [e2, ht0]
    exact e3.not_mem (by decide) hc
  · refine ⟨e5.abs, e5.ub, ?_, e5.files, e5.dirs, hi.ctx⟩
    have := e5.calls
    simp only [Place.macro] at this
    simp [this]

/-- The preprocessor computes what the specification says. -/
theorem sem_holds {env : Env} {fs : Files} {enc : Str} (hfs : FilesOf env enc fs)
    (hparse : ∀ js : Items, js.ok env.lang [] = true → env.parse js.text = .tree (js.tree (1, 0)))
    (hl1 : 1 ≤ env.lang) (hl2 : env.lang ≤ 8) {pl : Place} {w w' : World} {x : Todo} {c : List Str}
    (h : Sem fs env.lang pl w x c w') : Holds env fs enc pl w x c w' := by
  induction h with
  | nil => exact fun fuel ctx s _ _ _ hi p out hm => quiet_res hi out hm rfl
  | cons _ _ ih1 ih2 =>
    intro fuel ctx s h1 h2 h3 hi p out hm
    obtain ⟨o, s', t, e1, e2, e3, e4, e5⟩ := ih1 fuel ctx s h1 h2 h3 hi p out hm
    obtain ⟨o', s'', t', f1, f2, f3, f4, f5⟩ := ih2 fuel ctx s' h1 h2 h3 e5 _ o e4
    refine ⟨o', s'', t ++ t', ?_, by rw [f2, e2, List.append_assoc], e3.append f3, f4, f5⟩
    rw [Items.tree, visitNodes, M.bind_ok e1]
    exact f1
  | code => exact fun fuel ctx s _ _ _ hi p out hm => code_res hi _ _ _ out hm
  | str => exact fun fuel ctx s _ _ _ hi p out hm => code_res hi _ _ _ out hm
  | lineComment => exact fun fuel ctx s _ _ _ hi p out hm => code_res hi _ _ _ out hm
  | comment => exact fun fuel ctx s _ _ _ hi p out hm => code_res hi _ _ _ out hm
  | define a1 a2 a3 a4 a5 => exact fun fuel ctx s _ _ _ hi p out hm => define_res hi _ a1 a2 a3 a4 a5 _ _ out hm
  | redefine a1 a2 a3 => exact fun fuel ctx s _ _ _ hi p out hm => redefine_res hi _ a1 a2 a3 _ _ out hm
  | undef a1 a2 => exact fun fuel ctx s _ _ _ hi p out hm => undef_res hi _ a1 a2 out hm
  | undefFixed a1 a2 => exact fun fuel ctx s _ _ _ hi p out hm => undef_none hi _ (.inr ⟨_, a1, a2⟩) out hm
  | undefNone a1 => exact fun fuel ctx s _ _ _ hi p out hm => undef_none hi _ (.inl a1) out hm
  | undefineall => exact fun fuel ctx s _ _ _ hi p out hm => undefineall_res hi _ out hm
  | simple => exact fun fuel ctx s _ _ _ hi p out hm => quiet_res hi out hm rfl
  | call a1 a2 _ ih =>
    intro fuel ctx s h1 h2 h3 hi p out hm
    obtain ⟨it, hfind, hr⟩ := hi.abs.found a1
    cases hr with
    | user hnew hf hb => exact call_res _ hfind out (first_plain hnew hb _ rfl out) a2 (ih fuel ctx s h1 h2 h3 hi) hm
  | callText a1 a2 _ ih =>
    intro fuel ctx s h1 h2 h3 hi p out hm
    obtain ⟨it, hfind, hr⟩ := hi.abs.found a1
    cases hr with
    | user hnew hf hb => exact call_res _ hfind out (first_text hnew hb _ rfl out) a2 (ih fuel ctx s h1 h2 h3 hi) hm
  | callArgs a1 a2 _ a3 a4 _ ih =>
    intro fuel ctx s h1 h2 h3 hi p out hm
    obtain ⟨it, hfind, hr⟩ := hi.abs.found a1
    cases hr with
    | user hnew hf hb =>
      exact call_res _ hfind out (by rw [first_args hnew hf hb a2 _ rfl out]; exact congrArg Except.ok a3) a4 (ih fuel ctx s h1 h2 h3 hi) hm
  | incl a1 a2 a3 a4 a5 _ ih =>
    intro fuel ctx s h1 h2 h3 hi p out hm
    exact incl_res hfs hparse hl1 hl2 a1 a2 a3 a4 a5 ih (by omega) hi _ _ out hm
  | @condTrue pl w neg ws name g r c w' a1 _ ih =>
    intro fuel ctx s h1 h2 h3 hi p out hm
    simp only [Item.node]
    rw [visitNode, visitBranches, M.bind_ok (M.get_apply s), if_pos]
    · exact group_res (ih fuel ctx s h1 h2 h3 hi) _ _ out hm
    · rw [hi.abs.isSome]
      revert a1
      cases (w.macros name).isSome <;> cases neg <;> simp
  | @condFalse pl w neg ws name g r c w' a1 a2 _ ih =>
    intro fuel ctx s h1 h2 h3 hi p out hm
    simp only [Item.node]
    rw [visitNode, visitBranches, M.bind_ok (M.get_apply s), if_neg]
    · exact ih fuel ctx s h1 h2 h3 hi _ out neg a2 hm
    · rw [hi.abs.isSome]
      revert a1
      cases (w.macros name).isSome <;> cases neg <;> simp
  | endif => exact fun fuel ctx s _ _ _ hi p out neg _ hm => quiet_res hi out hm rfl
  | els _ ih =>
    intro fuel ctx s h1 h2 h3 hi p out neg _ hm
    simp only [Rest.tree]
    rw [visitBranches]
    exact group_res (ih fuel ctx s h1 h2 h3 hi) _ _ out hm
  | @elifTrue pl w ws name g r c w' a1 _ ih =>
    intro fuel ctx s h1 h2 h3 hi p out neg hneg hm
    have hn : neg = false := by cases neg with
      | false => rfl
      | true => exact absurd (hneg rfl) (by simp [Rest.noElif])
    subst hn
    simp only [Rest.tree]
    rw [visitBranches, M.bind_ok (M.get_apply s), if_pos (by rw [hi.abs.isSome, a1]; rfl)]
    exact group_res (ih fuel ctx s h1 h2 h3 hi) _ _ out hm
  | @elifFalse pl w ws name g r c w' a1 _ ih =>
    intro fuel ctx s h1 h2 h3 hi p out neg hneg hm
    have hn : neg = false := by cases neg with
      | false => rfl
      | true => exact absurd (hneg rfl) (by simp [Rest.noElif])
    subst hn
    simp only [Rest.tree]
    rw [visitBranches, M.bind_ok (M.get_apply s), if_neg (by rw [hi.abs.isSome]; revert a1; cases (w.macros name).isSome <;> simp)]
    exact ih fuel ctx s h1 h2 h3 hi _ out false (by simp) hm
  | @plain pl w r a1 =>
    intro fuel ctx s h1 h2 h3 hi call b
    refine ⟨r, s, ?_, by simpa using Spaced.single 0 r, a1, hi⟩
    unfold rescan
    rw [if_neg (by simpa using a1)]
    rfl
  | again a1 a2 a3 a4 _ a5 ih =>
    intro fuel ctx s h1 h2 h3 hi call b
    exact rescan_res hparse hl1 hl2 a1 a2 a3 a4 ih a5 h1 h3 hi call b

end

end Verif.Pp
