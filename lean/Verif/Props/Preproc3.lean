import Verif.Props.Preproc
/-!
# Where a preprocessing error is reported (C82)
-/
namespace Verif
open Spec

/-! ## Specification -/

mutual
/-- Line and column of the definitions, macro calls and includes of a text. -/
def Spec.placesN : Node → List (Nat × Nat)
  | .define d => [(d.line, d.col)]
  | .call c => [(c.line, c.col)]
  | .incl l k (.call c) => [(l, k), (c.line, c.col)]
  | .incl l k (.str _) => [(l, k)]
  | .cond _ b => Spec.placesB b
  | _ => []
def Spec.placesNs : Nodes → List (Nat × Nat)
  | .nil => []
  | .cons n r => Spec.placesN n ++ Spec.placesNs r
def Spec.placesB : Branches → List (Nat × Nat)
  | .endif => []
  | .els _ g => Spec.placesNs g
  | .elif _ _ g r => Spec.placesNs g ++ Spec.placesB r
end

/-- The text `<src>:<line>:<col>:Error: ` in front of a message. -/
def Spec.place (src : Str) (line col : Nat) : Str :=
  src ++ [':'] ++ Nat.toDigits 10 line ++ [':'] ++ Nat.toDigits 10 col ++ c! ":Error: "

/-- Names of sources: the string itself, the file that was given, files found in the include directories. -/
def Spec.SrcOk (env : Env) (start : Str) (src : Str) : Prop := src = c! "<string>" ∨ src = start ∨ env.fileExists src = true

/-- The message names the place of a construct of a text that was preprocessed, or it lists the syntax errors of such a text. -/
def Spec.Located (env : Env) (start : Str) (m : Str) : Prop :=
  (∃ txt t src line col msg, env.parse txt = .tree t ∧ (line, col) ∈ Spec.placesNs t ∧ Spec.SrcOk env start src ∧
    m = Spec.place src line col ++ msg) ∨
  (∃ txt e r, env.parse txt = .syntaxErrors e r ∧ m = formatErrors (c! "Preproc") (e :: r))

/-- The one message without a place. -/
def Spec.unfinishedMsg : Str := c! "Unfinished `\" string"

/-- What is shown about an exception of a run. -/
def ExcOk (env : Env) (start : Str) : Exc → Prop
  | .parse m => Spec.Located env start m ∨ (5 ≤ env.lang ∧ m = Spec.unfinishedMsg)
  | _ => True

/-- Invariant: the entries of the include stack are names of sources. -/
def StackOk (env : Env) (start : Str) (s : PState) : Prop := ∀ f ∈ s.incStack, Spec.SrcOk env start f

/-- From a state with the invariant: exceptions are as wanted, and without exception the invariant holds again. -/
def Okay (env : Env) (start : Str) {α : Type} (m : M α) : Prop :=
  ∀ s, StackOk env start s →
    (∀ e s', m s = (.error e, s') → ExcOk env start e) ∧ (∀ a s', m s = (.ok a, s') → StackOk env start s')

section
variable {env : Env} {start : Str}

theorem Okay.bind {α β : Type} {m : M α} {f : α → M β} (hm : Okay env start m) (hf : ∀ a, Okay env start (f a)) :
    Okay env start (m >>= f) := by
  intro s hs
  obtain ⟨h1, h2⟩ := hm s hs
  rcases hr : m s with ⟨a, s1⟩
  rw [M.bind_def, hr]
  cases a with
  | error e => exact ⟨fun e' s' h => by cases h; exact h1 _ _ hr, fun a s' h => by cases h⟩
  | ok a => exact hf a s1 (h2 _ _ hr)

theorem Okay.pure {α : Type} (a : α) : Okay env start (Pure.pure a : M α) :=
  fun s hs => ⟨fun e s' h => by simp at h, fun b s' h => by simp at h; rw [← h.2]; exact hs⟩

theorem Okay.get : Okay env start M.get :=
  fun s hs => ⟨fun e s' h => by simp at h, fun b s' h => by simp at h; rw [← h.2]; exact hs⟩

theorem Okay.get_bind {β : Type} {f : PState → M β} (hf : ∀ s, StackOk env start s → Okay env start (f s)) :
    Okay env start (M.get >>= f) :=
  fun s hs => by rw [M.bind_ok (M.get_apply s)]; exact hf s hs s hs

theorem Okay.throw {α : Type} {e : Exc} (he : ExcOk env start e) : Okay env start (M.throw e : M α) :=
  fun s hs => ⟨fun e' s' h => by simp at h; rw [← h.1]; exact he, fun b s' h => by simp at h⟩

theorem Okay.lift {α : Type} {x : Except Exc α} (hx : ∀ e, x = .error e → ExcOk env start e) : Okay env start (M.lift x) := by
  intro s hs
  rw [M.lift_apply]
  exact ⟨fun e' s' h => hx _ (by cases h; rfl), fun b s' h => by cases h; exact hs⟩

theorem Okay.modify {f : PState → PState} (hf : ∀ s, StackOk env start s → StackOk env start (f s)) :
    Okay env start (M.modify f) :=
  fun s hs => ⟨fun e s' h => by simp at h, fun b s' h => by simp at h; rw [← h]; exact hf s hs⟩

theorem place_eq (src : Str) (line col : Nat) (msg : Str) :
    inputError src line col msg = .parse (Spec.place src line col ++ msg) := by
  simp [inputError, Spec.place, dec]

theorem ExcOk.of_place {txt : Str} {t : Nodes} {src : Str} {line col : Nat} {msg : Str} (h : env.parse txt = .tree t)
    (hp : (line, col) ∈ Spec.placesNs t) (hs : Spec.SrcOk env start src) : ExcOk env start (inputError src line col msg) := by
  rw [place_eq]
  exact .inl (.inl ⟨txt, t, src, line, col, msg, h, hp, hs, rfl⟩)

theorem ExcOk.of_rethrow {txt : Str} {t : Nodes} {src : Str} {line col : Nat} {e : Exc} (h : env.parse txt = .tree t)
    (hp : (line, col) ∈ Spec.placesNs t) (hs : Spec.SrcOk env start src) : ExcOk env start (rethrow src line col e) := by
  cases e with
  | parse m => exact ExcOk.of_place h hp hs
  | _ => trivial

theorem setLine_err (o : OutBuf) (n : W) (e : Exc) (h : o.setLine n = .error e) : ExcOk env start e := by
  rcases setLine_cases o n with ⟨o', h1, -⟩ | ⟨h1, -⟩
  · rw [h1] at h; cases h
  · rw [h1] at h; cases h; trivial

theorem setFileLine_err (o : OutBuf) (f : Str) (n : W) (e : Exc) (h : o.setFileLine f n = .error e) : ExcOk env start e := by
  obtain ⟨o', h1, -⟩ := setFileLine_total o f n
  rw [h1] at h; cases h

theorem toUtf8_excOk (s enc : Str) (e : Exc) (h : toUtf8 s enc = .error e) : ExcOk env start e := by
  rcases toUtf8_err h with ⟨rfl, -⟩ | ⟨m, rfl⟩ <;> trivial

/-- Hypothesis on the nested runs. -/
def RecOkay (env : Env) (start : Str) (rec : Rec) : Prop :=
  ∀ ctx txt out, Spec.SrcOk env start ctx.src → Okay env start (rec ctx txt out)

theorem srcName_ok {s : PState} (hs : StackOk env start s) : Spec.SrcOk env start (s.incStack.getLast?.getD (c! "<string>")) := by
  cases h : s.incStack.getLast? with
  | none => exact .inl rfl
  | some f => exact hs f (List.mem_of_getLast? h)

theorem runStr_okay {rec : Rec} (hrec : RecOkay env start rec) (text enc : Str) (out : OutBuf) :
    Okay env start (runStr rec text enc out) := by
  unfold runStr
  refine Okay.get_bind fun s hs => ?_
  refine Okay.bind (Okay.lift fun e h => setFileLine_err _ _ _ e h) fun o => ?_
  refine Okay.bind (Okay.lift fun e h => toUtf8_excOk _ _ e h) fun t => ?_
  exact hrec _ _ _ (srcName_ok hs)

theorem runFile_okay {rec : Rec} (hrec : RecOkay env start rec) (path enc : Str) (out : OutBuf) (hp : Spec.SrcOk env start path) :
    Okay env start (runFile env rec path enc out) := by
  unfold runFile
  refine Okay.get_bind fun s0 _ => ?_
  unfold runFileIn
  refine Okay.bind (Okay.modify fun s hs => ?_) fun _ => ?_
  · intro f hf
    rcases List.mem_append.1 hf with h | h
    · exact hs f h
    · rw [List.mem_singleton.1 h]; exact hp
  refine Okay.bind (Okay.lift fun e h => ?_) fun b => ?_
  · cases hr : env.readFile path with
    | ok b => rw [hr] at h; cases h
    | error m => rw [hr] at h; cases h; trivial
  refine Okay.bind (Okay.lift fun e h => toUtf8_excOk _ _ e h) fun t => ?_
  refine Okay.bind (Okay.lift fun e h => setFileLine_err _ _ _ e h) fun o => ?_
  refine Okay.bind (hrec _ _ _ hp) fun o => ?_
  refine Okay.bind (Okay.modify fun s hs => ?_) fun _ => Okay.pure _
  intro f hf
  exact hs f (List.mem_of_mem_dropLast hf)

theorem paste_excOk (lang : Nat) (r : Str) (e : Exc) (h : paste lang r = .error e) : ExcOk env start e := by
  unfold paste at h
  split at h
  · obtain ⟨r1, h1, -⟩ := C24_replace_substring r (c! "``") [] (by simp)
    obtain ⟨r2, h2, -⟩ := C24_replace_substring r1 (c! "`\\`") (c! "\\") (by simp)
    simp only [h1, h2, bind, Except.bind] at h
    cases h
  · cases h

theorem unescape_excOk (r : Str) (e : Exc) (h : unescape env.lang r = .error e) : ExcOk env start e := by
  unfold unescape at h
  split at h
  · rename_i hl
    rcases unescape_cases r with ⟨q, h1⟩ | h1
    · rw [h1] at h; cases h
    · rw [h1] at h; cases h; exact .inr ⟨hl, rfl⟩
  · cases h

theorem expandCall_okay {rec : Rec} (hrec : RecOkay env start rec) (ctx : Ctx) (c : Call) (out : OutBuf) {txt : Str} {t : Nodes}
    (h : env.parse txt = .tree t) (hp : (c.line, c.col) ∈ Spec.placesNs t) (hs : Spec.SrcOk env start ctx.src) :
    Okay env start (expandCall env rec ctx c out) := by
  unfold expandCall
  refine Okay.get_bind fun s0 _ => ?_
  split
  · exact Okay.throw (ExcOk.of_place h hp hs)
  · split
    · exact Okay.throw (ExcOk.of_rethrow h hp hs)
    · refine Okay.bind (Okay.lift fun e h => paste_excOk _ _ e h) fun r => ?_
      refine Okay.bind ?_ fun r => Okay.lift fun e h => unescape_excOk _ e h
      unfold rescan
      split
      · refine Okay.get_bind fun s1 _ => ?_
        split
        · exact Okay.throw (ExcOk.of_place h hp hs)
        · refine Okay.bind (Okay.modify fun s hs => hs) fun _ => ?_
          refine Okay.bind (runStr_okay hrec _ _ _) fun o => ?_
          exact Okay.bind (Okay.modify fun s hs => hs) fun _ => Okay.pure _
      · exact Okay.pure _

theorem searchInc_spec (env : Env) (q : Str) (l : List Str) :
    (∀ e, searchInc env q l = .error e → ExcOk env start e) ∧ (∀ f, searchInc env q l = .ok (some f) → env.fileExists f = true) := by
  induction l with
  | nil => exact ⟨fun e h => by simp [searchInc] at h, fun f h => by simp [searchInc] at h⟩
  | cons d r ih =>
    simp only [searchInc, bind, Except.bind]
    cases hq : stripQuotes q with
    | error e =>
      refine ⟨fun e' h => ?_, fun f h => by cases h⟩
      cases h
      unfold stripQuotes at hq
      split at hq
      · cases hq; trivial
      · split at hq <;> cases hq
    | ok n =>
      dsimp only
      split
      · rename_i hf
        refine ⟨fun e' h => (by cases h), fun f h => ?_⟩
        simp only [pure, Except.pure, Except.ok.injEq, Option.some.injEq] at h
        rw [← h]; exact hf
      · exact ih

theorem runInclude_okay {rec : Rec} (hrec : RecOkay env start rec) (ctx : Ctx) (file : Str) (out : OutBuf)
    (hf : Spec.SrcOk env start file) : Okay env start (runInclude env rec ctx file out) := by
  unfold runInclude
  refine Okay.get_bind fun s0 _ => ?_
  split
  · split
    · exact Okay.throw trivial
    · refine Okay.bind (Okay.modify fun s hs => hs) fun _ => ?_
      refine Okay.bind (runFile_okay hrec _ _ _ hf) fun o => ?_
      exact Okay.bind (Okay.modify fun s hs => hs) fun _ => Okay.pure _
  · exact Okay.bind (runFile_okay hrec _ _ _ hf) fun o => Okay.pure _

theorem visitInclude_okay {rec : Rec} (hrec : RecOkay env start rec) (ctx : Ctx) (line col : Nat) (a : IncArg) (out : OutBuf)
    {txt : Str} {t : Nodes} (h : env.parse txt = .tree t) (hp : ∀ x ∈ Spec.placesN (.incl line col a), x ∈ Spec.placesNs t)
    (hs : Spec.SrcOk env start ctx.src) : Okay env start (visitInclude env rec ctx line col a out) := by
  have hlc : (line, col) ∈ Spec.placesNs t := hp _ (by cases a <;> simp [Spec.placesN])
  unfold visitInclude
  refine Okay.bind ?_ fun q => ?_
  · cases a with
    | str q => exact Okay.pure _
    | call c => exact expandCall_okay hrec _ _ _ h (hp _ (by simp [Spec.placesN])) hs
  refine Okay.get_bind fun s1 _ => ?_
  intro s hs'
  obtain ⟨h1, h2⟩ := searchInc_spec (start := start) env q s1.incdirs
  cases hsearch : searchInc env q s1.incdirs with
  | error e =>
    rw [M.bind_error (show M.lift _ s = _ from by rw [M.lift_apply])]
    exact ⟨fun e' s' he => by cases he; exact h1 _ hsearch, fun a s' he => by cases he⟩
  | ok o =>
    rw [M.bind_ok (show M.lift _ s = _ from by rw [M.lift_apply])]
    cases o with
    | none => exact Okay.throw (ExcOk.of_place h hlc hs) s hs'
    | some f =>
      dsimp only
      split
      · exact Okay.throw (ExcOk.of_place h hlc hs) s hs'
      · exact runInclude_okay hrec _ _ _ (.inr (.inr (h2 f hsearch))) s hs'

theorem visitDefine_okay (ctx : Ctx) (d : DefineNode) {txt : Str} {t : Nodes} (h : env.parse txt = .tree t)
    (hp : (d.line, d.col) ∈ Spec.placesNs t) (hs : Spec.SrcOk env start ctx.src) : Okay env start (visitDefine ctx d) := by
  unfold visitDefine
  refine Okay.bind (Okay.lift fun e he => ?_) fun b => ?_
  · obtain ⟨r, hr⟩ := defineBody_ok d
    rw [hr] at he; cases he
  · split
    · exact Okay.modify fun s hs => hs
    · exact Okay.throw (ExcOk.of_rethrow h hp hs)

mutual
theorem visitNode_okay {rec : Rec} (hrec : RecOkay env start rec) (ctx : Ctx) {txt : Str} {t : Nodes} (h : env.parse txt = .tree t)
    (hs : Spec.SrcOk env start ctx.src) : ∀ (n : Node) (out : OutBuf), (∀ x ∈ Spec.placesN n, x ∈ Spec.placesNs t) →
    Okay env start (visitNode env rec ctx n out)
  | .code line s, out, _ => by
    rw [visitNode]
    exact Okay.bind (Okay.lift fun e h => setLine_err _ _ e h) fun o => Okay.pure _
  | .define d, out, hp => by
    rw [visitNode]
    exact Okay.bind (visitDefine_okay ctx d h (hp _ (by simp [Spec.placesN])) hs) fun o => Okay.pure _
  | .cond neg b, out, hp => by
    rw [visitNode]
    exact visitBranches_okay hrec ctx h hs neg b out (fun x hx => hp x (by simpa [Spec.placesN] using hx))
  | .call c, out, hp => by
    rw [visitNode]
    refine Okay.bind (expandCall_okay hrec ctx c out h (hp _ (by simp [Spec.placesN])) hs) fun r => ?_
    exact Okay.bind (Okay.lift fun e h => setLine_err _ _ e h) fun o => Okay.pure _
  | .undef name, out, _ => by
    rw [visitNode]
    refine Okay.bind (Okay.modify fun s hs => ?_) fun _ => Okay.pure _
    split
    · split
      · exact hs
      · exact hs
    · exact hs
  | .undefineall, out, _ => by
    rw [visitNode]
    exact Okay.bind (Okay.modify fun s hs => hs) fun _ => Okay.pure _
  | .incl line col a, out, hp => by
    rw [visitNode]
    exact visitInclude_okay hrec ctx line col a out h hp hs
  | .lineDir num file, out, _ => by
    rw [visitNode]
    exact Okay.lift fun e h => setFileLine_err _ _ _ e h
  | .nop, out, _ => by
    rw [visitNode]
    exact Okay.pure _
theorem visitNodes_okay {rec : Rec} (hrec : RecOkay env start rec) (ctx : Ctx) {txt : Str} {t : Nodes} (h : env.parse txt = .tree t)
    (hs : Spec.SrcOk env start ctx.src) : ∀ (n : Nodes) (out : OutBuf), (∀ x ∈ Spec.placesNs n, x ∈ Spec.placesNs t) →
    Okay env start (visitNodes env rec ctx n out)
  | .nil, out, _ => by rw [visitNodes]; exact Okay.pure _
  | .cons n r, out, hp => by
    rw [visitNodes]
    refine Okay.bind (visitNode_okay hrec ctx h hs n out fun x hx => hp x (by simp [Spec.placesNs, hx])) fun o => ?_
    exact visitNodes_okay hrec ctx h hs r o fun x hx => hp x (by simp [Spec.placesNs, hx])
theorem visitBranches_okay {rec : Rec} (hrec : RecOkay env start rec) (ctx : Ctx) {txt : Str} {t : Nodes} (h : env.parse txt = .tree t)
    (hs : Spec.SrcOk env start ctx.src) (neg : Bool) : ∀ (b : Branches) (out : OutBuf), (∀ x ∈ Spec.placesB b, x ∈ Spec.placesNs t) →
    Okay env start (visitBranches env rec ctx neg b out)
  | .endif, out, _ => by rw [visitBranches]; exact Okay.pure _
  | .els line g, out, hp => by
    rw [visitBranches]
    refine Okay.bind (Okay.lift fun e h => setLine_err _ _ e h) fun o => ?_
    exact visitNodes_okay hrec ctx h hs g o fun x hx => hp x (by simp [Spec.placesB, hx])
  | .elif cond line g r, out, hp => by
    rw [visitBranches]
    refine Okay.get_bind fun s0 _ => ?_
    split
    · refine Okay.bind (Okay.lift fun e h => setLine_err _ _ e h) fun o => ?_
      exact visitNodes_okay hrec ctx h hs g o fun x hx => hp x (by simp [Spec.placesB, hx])
    · exact visitBranches_okay hrec ctx h hs neg r out fun x hx => hp x (by simp [Spec.placesB, hx])
end

theorem run_okay (fuel : Nat) : RecOkay env start (run env fuel) := by
  induction fuel with
  | zero => exact fun ctx txt out _ => Okay.throw trivial
  | succ n ih =>
    intro ctx txt out hs
    unfold run
    split
    · exact Okay.throw trivial
    · rename_i e r he
      exact Okay.throw (.inl (.inr ⟨txt, e, r, he, rfl⟩))
    · rename_i t ht
      split
      · exact visitNodes_okay ih ctx ht hs t out fun x hx => hx
      · exact Okay.throw trivial

end

/-! ## C82 -/

/-- **C82** as far as it holds (string): the message of a ParseException names a place where there is a definition, a macro call or an
include in one of the texts that were preprocessed (or lists the syntax errors of such a text). For SystemVerilog there is one
other message, about an unfinished `` `" `` string. Missing: that the place lies in the named file, see `C82_violated_macro_text`. -/
theorem C82_located_str_partial (env : Env) (db : MacroDB) (incdirs : List Str) (text enc m : Str)
    (h : (verilogPpStr env db incdirs text enc).1 = .error (.parse m)) :
    Spec.Located env [] m ∨ (5 ≤ env.lang ∧ m = Spec.unfinishedMsg) := by
  have := (Okay.bind (runStr_okay (env := env) (start := []) (run_okay FUEL) text enc (OutBuf.new 0)) fun o => Okay.pure o.text)
    (initState env db incdirs) (fun f hf => by simp [initState] at hf)
  exact this.1 (.parse m) _ (Prod.ext h rfl)

/-- **C82** as far as it holds (file). -/
theorem C82_located_file_partial (env : Env) (db : MacroDB) (incdirs : List Str) (path enc m : Str)
    (h : (verilogPp env db incdirs path enc).1 = .error (.parse m)) :
    Spec.Located env path m ∨ (5 ≤ env.lang ∧ m = Spec.unfinishedMsg) := by
  have := (Okay.bind (runFile_okay (env := env) (start := path) (run_okay FUEL) path enc (OutBuf.new 0) (.inr (.inl rfl)))
    fun o => Okay.pure o.text) (initState env db incdirs) (fun f hf => by simp [initState] at hf)
  exact this.1 (.parse m) _ (Prod.ext h rfl)

private theorem call_fails {env : Env} {c : Conf} {nd : Node} {r : Nodes} {cl : Call} {item : DbItem} {m : Str} (hc : c.ns = .cons nd r)
    (hcall : callOf nd = some cl) (hfind : c.s.db.find cl.name = some item)
    (hrepl : firstReplacement item.obj cl c.out = .error (.parse m)) :
    Fails (result env c) (.parse (Spec.place c.ctx.src cl.line cl.col ++ m)) := by
  obtain ⟨n, ctx, ns, out, s⟩ := c
  simp only at hc hfind hrepl
  subst hc
  have hx : Fails (expandCall env (run env n) ctx cl out s) (.parse (Spec.place ctx.src cl.line cl.col ++ m)) := by
    unfold expandCall
    rw [M.bind_ok (M.get_apply s), hfind]
    simp only [hrepl, rethrow, place_eq]
    rfl
  unfold result
  simp only [visitNodes]
  apply Fails.bind
  cases nd with
  | call c' => simp [callOf] at hcall; subst hcall; rw [visitNode]; exact Fails.bind hx
  | incl l k a =>
    cases a with
    | str q => simp [callOf] at hcall
    | call c' =>
      simp [callOf] at hcall; subst hcall; rw [visitNode]; unfold visitInclude
      apply Fails.bind
      exact hx
  | _ => simp [callOf] at hcall

/-- **C82**, macro calls: a call which is reached and whose arguments do not fit makes the run fail with the place of the call in front
of the reason. -/
theorem C82_call_place (env : Env) (db : MacroDB) (incdirs : List Str) (text enc : Str) (c0 c : Conf) (ls : List Nat)
    (nd : Node) (r : Nodes) (cl : Call) (item : DbItem) (m : Str) (h0 : StartStr env db incdirs text enc c0) (hr : Reached env c0 ls c)
    (hc : c.ns = .cons nd r) (hcall : callOf nd = some cl) (hfind : c.s.db.find cl.name = some item)
    (hrepl : firstReplacement item.obj cl c.out = .error (.parse m)) :
    (verilogPpStr env db incdirs text enc).1 = .error (.parse (Spec.place c.ctx.src cl.line cl.col ++ m)) :=
  h0.fails (hr.fails (call_fails hc hcall hfind hrepl))

private theorem define_fails {env : Env} {c : Conf} {d : DefineNode} {r : Nodes} {body m : Str} (hc : c.ns = .cons (.define d) r)
    (hbody : defineBody d = .ok body)
    (hnew : MacroDef.new d.name d.params.isSome (d.params.getD []) body = .error (.parse m)) :
    Fails (result env c) (.parse (Spec.place c.ctx.src d.line d.col ++ m)) := by
  obtain ⟨n, ctx, ns, out, s⟩ := c
  simp only at hc
  subst hc
  unfold result
  simp only [visitNodes]
  apply Fails.bind
  rw [visitNode]
  apply Fails.bind
  unfold visitDefine
  rw [M.bind_lift hbody]
  simp only [hnew, rethrow, place_eq]
  rfl

/-- **C82**, definitions: a definition which is reached and is rejected makes the run fail with the place of the definition in front of
the reason. -/
theorem C82_define_place (env : Env) (db : MacroDB) (incdirs : List Str) (text enc : Str) (c0 c : Conf) (ls : List Nat)
    (d : DefineNode) (r : Nodes) (body m : Str) (h0 : StartStr env db incdirs text enc c0) (hr : Reached env c0 ls c)
    (hc : c.ns = .cons (.define d) r) (hbody : defineBody d = .ok body)
    (hnew : MacroDef.new d.name d.params.isSome (d.params.getD []) body = .error (.parse m)) :
    (verilogPpStr env db incdirs text enc).1 = .error (.parse (Spec.place c.ctx.src d.line d.col ++ m)) :=
  h0.fails (hr.fails (define_fails hc hbody hnew))

/-! ### Cases that meet the hypotheses -/

/-- `M` needs arguments and is called in line 2 without. -/
private def exT : Nodes := .cons (.code 1 (c! "a\n")) (.cons (call0 2 (c! "M")) .nil)
private def exItem : DbItem := ⟨.user ⟨c! "M", true, [⟨c! "x", false, []⟩], []⟩, true⟩
private def exEnv : Env := tableEnv 8 [(c! "src", exT)] []

example : ∃ m, (verilogPpStr exEnv [(c! "M", exItem)] [] (c! "src") (c! "utf-8")).1 = .error (.parse m) ∧
    m = c! "<string>:2:0:Error: Macro M requires braces" := ⟨_, by decide, rfl⟩
example : ∃ m, (verilogPp (tableEnv 8 [(c! "src", exT)] [(c! "f", c! "src")]) [(c! "M", exItem)] [] (c! "f") (c! "utf-8")).1 =
    .error (.parse m) ∧ m = c! "f:2:0:Error: Macro M requires braces" := ⟨_, by decide, rfl⟩

example : ∃ c0 c ls nd r cl item m, StartStr exEnv [(c! "M", exItem)] [] (c! "src") (c! "utf-8") c0 ∧ Reached exEnv c0 ls c ∧
    c.ns = .cons nd r ∧ callOf nd = some cl ∧ c.s.db.find cl.name = some item ∧
    firstReplacement item.obj cl c.out = .error (.parse m) := by
  refine ⟨_, _, _, _, _, _, exItem, _, ⟨c! "src", exT, _, rfl, rfl, rfl, by decide, by decide, rfl⟩, .same .refl (.next rfl), rfl, rfl,
    by decide, rfl⟩

/-- a definition whose text has a string that does not end -/
private def exD : DefineNode := { line := 1, col := 0, name := c! "M", params := none, body := some (c! "\"x", []) }
private def exEnvD : Env := tableEnv 8 [(c! "src", .cons (.define exD) .nil)] []

example : ∃ c0 c ls r body m, StartStr exEnvD [] [] (c! "src") (c! "utf-8") c0 ∧ Reached exEnvD c0 ls c ∧
    c.ns = .cons (.define exD) r ∧ defineBody exD = .ok body ∧
    MacroDef.new exD.name exD.params.isSome (exD.params.getD []) body = .error (.parse m) := by
  refine ⟨_, _, _, _, c! "\"x", _, ⟨c! "src", _, _, rfl, rfl, rfl, by decide, by decide, rfl⟩, .refl, rfl, by decide, rfl⟩

/-! ### Where it is false -/

/-- **C82 is false** for an unfinished `` `" `` string: no place at all is named. -/
theorem C82_violated_unfinished :
    (verilogPpStr (tableEnv 8 [(c! "src", .cons (call0 1 (c! "M")) .nil)] []) [textMacro (c! "M") (c! "`\"x") true] [] (c! "src")
      (c! "utf-8")).1 = .error (.parse Spec.unfinishedMsg) := by decide

/-- **C82 is false** for texts of macros: the message names line 2 of the source, which is an empty line; the failing call is in the second
line of the text of the macro that is called in line 3. -/
theorem C82_violated_macro_text :
    let t : Nodes := .cons (.code 1 (c! "a\n\n")) (.cons (call0 3 (c! "M")) .nil)
    (verilogPpStr (tableEnv 8 [(c! "src", t), (c! "x\n`N", .cons (.code 1 (c! "x\n")) (.cons (call0 2 (c! "N")) .nil))] [])
      [textMacro (c! "M") (c! "x\n`N") true] [] (c! "src") (c! "utf-8")).1 =
      .error (.parse (Spec.place (c! "<string>") 2 0 ++ c! "N is not defined")) ∧
    ∀ col, (2, col) ∉ Spec.placesNs t := by
  refine ⟨by decide, fun col => ?_⟩
  simp [Spec.placesNs, Spec.placesN, call0]

end Verif
