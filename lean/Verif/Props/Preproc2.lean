import Verif.Props.Preproc
/-!
# Properties of the directives: C13, C14, C15, C16, C19, C21, C49, C51, C52, C54, C55, C56
-/
namespace Verif
open Spec

/-! ## C13 -/

/-- The rule of the language: the first branch whose condition holds; only the first condition of an `` `ifndef `` chain
is negated. -/
inductive Sel (db : MacroDB) : Bool → Branches → Nat → Nodes → Prop
  | here {neg cond line g r} : (Defined db cond ↔ neg = false) → Sel db neg (.elif cond line g r) line g
  | els {neg line g} : Sel db neg (.els line g) line g
  | later {neg cond line g r l' g'} : ¬ (Defined db cond ↔ neg = false) → Sel db false r l' g' →
      Sel db neg (.elif cond line g r) l' g'

private theorem Sel.taken {db : MacroDB} {b : Branches} {l : Nat} {g : Nodes} (h : Sel db false b l g) : Taken false db b l g := by
  generalize hn : false = neg at h
  induction h with
  | here hc => subst hn; exact .here hc
  | els => exact .els
  | later hc _ ih => subst hn; exact .later hc (ih rfl)

private theorem none_taken {env : Env} {rec : Rec} {ctx : Ctx} {neg : Bool} {b : Branches} {out : OutBuf} {s : PState}
    (h : ∀ l g, ¬ Taken neg s.db b l g) : visitBranches env rec ctx neg b out s = (.ok out, s) := by
  match b with
  | .endif => rw [visitBranches]; rfl
  | .els l g => exact absurd .els (h l g)
  | .elif cond l g r =>
    by_cases hc : Defined s.db cond ↔ neg = false
    · exact absurd (.here hc) (h l g)
    · rw [visitBranches, M.bind_ok (M.get_apply s), if_neg (by rw [cond_iff]; exact hc)]
      exact none_taken (fun l' g' ht => h l' g' (.later hc ht))

private theorem Spec.Taken.sel {db : MacroDB} {b : Branches} {l : Nat} {g : Nodes} (h : Taken false db b l g) : Sel db false b l g := by
  induction h with
  | here hc => exact .here hc
  | els => exact .els
  | later hc _ ih => exact .later hc ih

/-- **C13** for `` `ifdef `` with any number of `` `elsif ``: the branch selected by the language is processed (with the line
of its first token), and nothing else; if no branch is selected there is no effect at all. -/
theorem C13_ifdef (env : Env) (rec : Rec) (ctx : Ctx) (b : Branches) (out : OutBuf) (s : PState) :
    (∀ l g, Sel s.db false b l g → visitNode env rec ctx (.cond false b) out s =
      (do let o ← M.lift (out.setLine (line0 l)); visitNodes env rec ctx g o : M OutBuf) s) ∧
    ((∀ l g, ¬ Sel s.db false b l g) → visitNode env rec ctx (.cond false b) out s = (.ok out, s)) := by
  constructor
  · intro l g h
    rw [visitNode]
    exact visitBranches_taken h.taken
  · intro h
    rw [visitNode]
    exact none_taken (fun l g ht => h l g ht.sel)

example : Sel [textMacro (c! "B") [] true] false
    (.elif (c! "A") 2 .nil (.elif (c! "B") 4 (.cons (.code 4 (c! "b")) .nil) (.els 6 .nil))) 4 (.cons (.code 4 (c! "b")) .nil) := by
  refine .later ?_ (.here ?_)
  · rw [← cond_iff]; decide
  · rw [← cond_iff]; decide

/-- **C13** for `` `ifndef `` without `` `elsif ``. Missing for the full property: chains with `` `elsif `` (false, see below). -/
theorem C13_ifndef_partial (env : Env) (rec : Rec) (ctx : Ctx) (cond : Str) (line : Nat) (g0 : Nodes) (rest : Branches)
    (hrest : rest = .endif ∨ ∃ l g, rest = .els l g) (out : OutBuf) (s : PState) :
    (∀ l g, Sel s.db true (.elif cond line g0 rest) l g → visitNode env rec ctx (.cond true (.elif cond line g0 rest)) out s =
      (do let o ← M.lift (out.setLine (line0 l)); visitNodes env rec ctx g o : M OutBuf) s) ∧
    ((∀ l g, ¬ Sel s.db true (.elif cond line g0 rest) l g) →
      visitNode env rec ctx (.cond true (.elif cond line g0 rest)) out s = (.ok out, s)) := by
  constructor
  · intro l g h
    rw [visitNode]
    apply visitBranches_taken
    cases h with
    | here hc => exact .here hc
    | later hc hl =>
      refine .later hc ?_
      rcases hrest with rfl | ⟨l1, g1, rfl⟩
      · cases hl
      · cases hl; exact .els
  · intro h
    rw [visitNode]
    apply none_taken
    intro l g ht
    cases ht with
    | here hc => exact h _ _ (.here hc)
    | later hc hl =>
      refine h l g (.later hc ?_)
      rcases hrest with rfl | ⟨l1, g1, rfl⟩
      · cases hl
      · cases hl; exact .els

/-- **C13 is false** for `` `ifndef A ... `elsif B ``: whenever `A` is defined, the `` `elsif `` branch is processed exactly if
`B` is *not* defined. -/
theorem C13_violated_general (env : Env) (rec : Rec) (ctx : Ctx) (a b : Str) (l1 l2 : Nat) (g1 g2 : Nodes) (out : OutBuf)
    (s : PState) (ha : Defined s.db a) :
    visitNode env rec ctx (.cond true (.elif a l1 g1 (.elif b l2 g2 .endif))) out s =
      if (s.db.find b).isSome then (.ok out, s)
      else (do let o ← M.lift (out.setLine (line0 l2)); visitNodes env rec ctx g2 o : M OutBuf) s := by
  rw [visitNode]
  split
  · rename_i hb
    rw [find_isSome_iff] at hb
    apply none_taken
    intro l g ht
    cases ht with
    | here hc => simp [ha] at hc
    | later _ hl =>
      cases hl with
      | here hc => simp [hb] at hc
      | later _ hl => cases hl
  · rename_i hb
    rw [find_isSome_iff] at hb
    exact visitBranches_taken (.later (by simp [ha]) (.here (by simp [hb])))

/-- A concrete source: `A` and `B` are defined, the language selects the `` `elsif B `` branch, the output is empty. -/
theorem C13_violated_witness :
    let b : Branches := .elif (c! "A") 2 (.cons (.code 2 (c! "x\n")) .nil) (.elif (c! "B") 4 (.cons (.code 4 (c! "y\n")) .nil) .endif)
    let db := [textMacro (c! "A") [] true, textMacro (c! "B") [] true]
    Sel db true b 4 (.cons (.code 4 (c! "y\n")) .nil) ∧
    (verilogPpStr (tableEnv 8 [(c! "src", .cons (.cond true b) .nil)] []) db [] (c! "src") (c! "utf-8")).1 = .ok [] := by
  refine ⟨.later ?_ (.here ?_), by decide⟩
  · rw [← cond_iff]; decide
  · rw [← cond_iff]; decide

/-! ## C14 -/

/-- Replace the content of branch number `i`. -/
def setBranch : Nat → Nat → Nodes → Branches → Branches
  | _, _, _, .endif => .endif
  | 0, l, g, .els _ _ => .els l g
  | _ + 1, _, _, .els l g => .els l g
  | 0, l, g, .elif c _ _ r => .elif c l g r
  | i + 1, l, g, .elif c l' g' r => .elif c l' g' (setBranch i l g r)

/-- Number of the processed branch. -/
inductive TakenNo (neg : Bool) (db : MacroDB) : Branches → Nat → Prop
  | here {cond line g r} : (Defined db cond ↔ neg = false) → TakenNo neg db (.elif cond line g r) 0
  | els {line g} : TakenNo neg db (.els line g) 0
  | later {cond line g r i} : ¬ (Defined db cond ↔ neg = false) → TakenNo neg db r i → TakenNo neg db (.elif cond line g r) (i + 1)

private theorem setBranch_visit (env : Env) (rec : Rec) (ctx : Ctx) (neg : Bool) (out : OutBuf) (s : PState) (l : Nat) (g : Nodes)
    (b : Branches) (i : Nat) (h : ¬ TakenNo neg s.db b i) :
    visitBranches env rec ctx neg (setBranch i l g b) out s = visitBranches env rec ctx neg b out s := by
  match b, i with
  | .endif, _ => rw [setBranch]
  | .els _ _, 0 => exact absurd .els h
  | .els _ _, _ + 1 => rw [setBranch]
  | .elif c l' g' r, 0 =>
    rw [setBranch, visitBranches, visitBranches, M.bind_ok (M.get_apply s), M.bind_ok (M.get_apply s)]
    by_cases hc : Defined s.db c ↔ neg = false
    · exact absurd (.here hc) h
    · rw [if_neg (by rw [cond_iff]; exact hc), if_neg (by rw [cond_iff]; exact hc)]
  | .elif c l' g' r, i + 1 =>
    rw [setBranch, visitBranches, visitBranches, M.bind_ok (M.get_apply s), M.bind_ok (M.get_apply s)]
    by_cases hc : Defined s.db c ↔ neg = false
    · rw [if_pos (cond_iff.2 hc), if_pos (cond_iff.2 hc)]
    · rw [if_neg (by rw [cond_iff]; exact hc), if_neg (by rw [cond_iff]; exact hc)]
      exact setBranch_visit env rec ctx neg out s l g r i (fun ht => h (.later hc ht))

/-- **C14**: at any point of any run, replacing the content of a branch that is not processed by anything else changes
neither the result of the rest of the run nor its final state.
Missing for the full property: the text of skipped branches still has to be accepted by the grammar, so errors in
skipped text are reported (`C14_violated_witness`). -/
theorem C14_skipped_irrelevant_partial (env : Env) (n : Nat) (ctx : Ctx) (neg : Bool) (b : Branches) (rest : Nodes) (out : OutBuf)
    (s : PState) (i l : Nat) (g : Nodes) (h : ¬ TakenNo neg s.db b i) :
    result env ⟨n, ctx, .cons (.cond neg (setBranch i l g b)) rest, out, s⟩ =
    result env ⟨n, ctx, .cons (.cond neg b) rest, out, s⟩ := by
  unfold result
  simp only [visitNodes, visitNode, M.bind_def, setBranch_visit env _ ctx neg out s l g b i h]

example : ¬ TakenNo false [textMacro (c! "A") [] true] (.elif (c! "A") 2 .nil (.els 4 .nil)) 1 := by
  intro h
  cases h with
  | later hc _ => exact hc (by rw [← cond_iff]; decide)

/-- Exactly one branch is processed, if any: the choice is unique. -/
theorem C14_one_branch (neg : Bool) (db : MacroDB) (b : Branches) (i j : Nat) (hi : TakenNo neg db b i) (hj : TakenNo neg db b j) :
    i = j := by
  induction hi generalizing j with
  | here hc => cases hj with
    | here => rfl
    | later hn => exact absurd hc hn
  | els => cases hj; rfl
  | later hn _ ih => cases hj with
    | here hc => exact absurd hc hn
    | later _ h => rw [ih _ h]

/-! ## C15 -/

/-- Name, parameters and text of a definition. -/
def simpleDefine (line : Nat) (name text : Str) : Node := .define ⟨line, 0, name, none, some (text, [])⟩

/-- **C15 is false**: if the name is already defined, a `` `define `` (with a text that is accepted) has no effect at all. -/
theorem C15_violated_general (env : Env) (rec : Rec) (ctx : Ctx) (d : DefineNode) (out : OutBuf) (s : PState)
    (hd : Defined s.db d.name) (o : OutBuf) (s' : PState) (h : visitNode env rec ctx (.define d) out s = (.ok o, s')) :
    o = out ∧ s' = s := by
  rw [visitNode] at h
  unfold visitDefine at h
  obtain ⟨b, hb⟩ := defineBody_ok d
  have hins : ∀ it, s.db.insert d.name it = s.db := by
    intro it
    unfold MacroDB.insert
    rw [if_pos (find_isSome_iff.2 hd)]
  rcases new_cases d.name d.params.isSome (d.params.getD []) b with ⟨m, hm⟩ | ⟨m, hm⟩
  · have : visitDefine ctx d s = (.ok (), s) := by
      unfold visitDefine
      rw [M.bind_lift hb, hm]
      simp [hins]
    change (visitDefine ctx d >>= fun _ => (return out : M OutBuf)) s = _ at h
    rw [M.bind_ok this] at h
    simp at h
    exact ⟨h.1.symm, h.2.symm⟩
  · have : visitDefine ctx d s = (.error (rethrow ctx.src d.line d.col (.parse m)), s) := by
      unfold visitDefine
      rw [M.bind_lift hb, hm]
      rfl
    change (visitDefine ctx d >>= fun _ => (return out : M OutBuf)) s = _ at h
    rw [M.bind_error this] at h
    simp at h

/-- `` `define X a / `define X b / `X `` gives `a`. -/
theorem C15_violated_witness :
    (verilogPpStr (tableEnv 8 [(c! "src", .cons (simpleDefine 1 (c! "X") (c! "a")) (.cons (simpleDefine 2 (c! "X") (c! "b"))
      (.cons (call0 3 (c! "X")) .nil)))] []) [] [] (c! "src") (c! "utf-8")).1 = .ok (c! "\n\na") := by decide

/-- **C15** as far as it holds: a definition of a name that is not defined (e.g. after `` `undef ``) takes effect, and no
other name is affected. -/
theorem C15_new_definition_partial (env : Env) (rec : Rec) (ctx : Ctx) (d : DefineNode) (out o : OutBuf) (s s' : PState)
    (hd : ¬ Defined s.db d.name) (h : visitNode env rec ctx (.define d) out s = (.ok o, s')) :
    o = out ∧ (∃ m body, defineBody d = .ok body ∧ MacroDef.new d.name d.params.isSome (d.params.getD []) body = .ok m ∧
      s'.db.find d.name = some ⟨.user m, false⟩) ∧ ∀ k, k ≠ d.name → s'.db.find k = s.db.find k := by
  rw [visitNode] at h
  obtain ⟨b, hb⟩ := defineBody_ok d
  rcases new_cases d.name d.params.isSome (d.params.getD []) b with ⟨m, hm⟩ | ⟨m, hm⟩
  · have hv : visitDefine ctx d s = (.ok (), { s with db := s.db ++ [(d.name, ⟨.user m, false⟩)] }) := by
      unfold visitDefine
      rw [M.bind_lift hb, hm]
      simp only [M.modify_apply]
      unfold MacroDB.insert
      rw [if_neg (by rw [find_isSome_iff]; exact hd)]
    change (visitDefine ctx d >>= fun _ => (return out : M OutBuf)) s = _ at h
    rw [M.bind_ok hv] at h
    simp only [M.pure_apply, Prod.mk.injEq, Except.ok.injEq] at h
    obtain ⟨rfl, rfl⟩ := h
    refine ⟨rfl, ⟨m, b, hb, hm, ?_⟩, ?_⟩
    · have := find_none_iff_not.2 hd
      unfold MacroDB.find at this ⊢
      rw [Option.map_eq_none_iff] at this
      simp [List.find?_append, this]
    · intro k hk
      unfold MacroDB.find
      have : List.find? (fun p => p.1 == k) [(d.name, (⟨.user m, false⟩ : DbItem))] = none := by
        simp [Ne.symm hk]
      rw [List.find?_append, this]
      simp
  · have : visitDefine ctx d s = (.error (rethrow ctx.src d.line d.col (.parse m)), s) := by
      unfold visitDefine
      rw [M.bind_lift hb, hm]
      rfl
    change (visitDefine ctx d >>= fun _ => (return out : M OutBuf)) s = _ at h
    rw [M.bind_error this] at h
    simp at h

example : ¬ Defined ([] : MacroDB) (c! "X") := by simp [Defined]

/-! ## C16 -/

/-- **C16**, effect on the database: the macro is gone unless it was set through the API, all other names are
unchanged, and nothing else changes. Missing for the full property: memory safety (false, see below). -/
theorem C16_effect_partial (env : Env) (rec : Rec) (ctx : Ctx) (name : Str) (out : OutBuf) (s : PState) :
    ∃ s', visitNode env rec ctx (.undef name) out s = (.ok out, s') ∧
      (∀ v, s.db.find name = some v → v.persistent = false → ¬ Defined s'.db name) ∧
      (∀ v, s.db.find name = some v → v.persistent = true → s'.db = s.db) ∧
      (¬ Defined s.db name → s' = s) ∧
      (∀ k, k ≠ name → s'.db.find k = s.db.find k) ∧
      s'.incdirs = s.incdirs ∧ s'.incStack = s.incStack ∧ s'.callStack = s.callStack := by
  refine ⟨(visitUndef name s).2, ?_, ?_⟩
  · rw [visitNode]; rfl
  · have he : ∀ k, k ≠ name → (s.db.erase name).find k = s.db.find k := by
      intro k hk
      unfold MacroDB.erase MacroDB.find
      rw [List.find?_filter]
      congr 1
      congr 1
      funext p
      by_cases hp : p.1 = k
      · simp [hp, hk]
      · simp [hp]
    unfold visitUndef
    simp only [M.modify_apply]
    cases hf : s.db.find name with
    | none => exact ⟨by simp, by simp, by simp, by simp, by simp⟩
    | some it =>
      simp only
      have hdef : Defined s.db name := find_isSome_iff.1 (by rw [hf]; rfl)
      cases hp : it.persistent with
      | true =>
        refine ⟨?_, by simp, by simp [hdef], by simp, by simp⟩
        intro v hv hv'
        simp at hv; subst hv
        rw [hp] at hv'; simp at hv'
      | false =>
        refine ⟨?_, ?_, by simp [hdef], ?_, by simp⟩
        · rintro v - - ⟨w, hw⟩
          simp [MacroDB.erase] at hw
        · intro v hv hv'
          simp at hv; subst hv
          rw [hp] at hv'; simp at hv'
        · intro k hk
          exact he k hk

/-- **C16, memory safety, is false**: every `` `undef `` of a macro that was defined in the source reads the freed map node. -/
theorem C16_violated_use_after_erase (env : Env) (rec : Rec) (ctx : Ctx) (name : Str) (out : OutBuf) (s : PState) (v : DbItem)
    (hv : s.db.find name = some v) (hp : v.persistent = false) :
    (visitNode env rec ctx (.undef name) out s).2.ub = true := by
  have : (visitNode env rec ctx (.undef name) out s).2 = (visitUndef name s).2 := by rw [visitNode]; rfl
  rw [this]
  simp [visitUndef, hv, hp]

/-- Observable at the API: `` `define X 1 / `undef X ``. -/
theorem C16_violated_witness :
    (verilogPpStr (tableEnv 8 [(c! "src", .cons (simpleDefine 1 (c! "X") (c! "1")) (.cons (.undef (c! "X")) .nil))] [])
      [] [] (c! "src") (c! "utf-8")).2.ub = true := by decide

/-! ## C19 -/

/-- The candidate paths of an include, in the order of the property: the user's directories, then the directory of the
including file (unless it is one of them). `file = none`: the source is a string. -/
def candidates (env : Env) (U : List Str) (file : Option Str) (name : Str) : List Str :=
  (U ++ (match file with | some f => ownDir env U f | none => [])).map (fun d => env.join d name)

private theorem stripQuotes_eq (a b : Char) (name : Str) : stripQuotes (a :: name ++ [b]) = .ok name := by
  unfold stripQuotes
  rw [if_neg (by simp), if_neg (by simp)]
  simp

private theorem searchInc_eq (env : Env) (a b : Char) (name : Str) (dirs : List Str) :
    searchInc env (a :: name ++ [b]) dirs = .ok ((dirs.map (fun d => env.join d name)).find? env.fileExists) := by
  induction dirs with
  | nil => rfl
  | cons d r ih =>
    simp only [searchInc, stripQuotes_eq, bind, Except.bind, pure, Except.pure, List.map_cons, List.find?_cons]
    cases env.fileExists (env.join d name) with
    | true => rfl
    | false => simpa using ih

/-- The file a text belongs to. -/
def fileOf (c : Conf) : Option Str := c.s.incStack.getLast?

private theorem visible_dirs {env : Env} {U : List Str} {c : Conf} (hd : DirInv env U c) (hcs : c.s.callStack = []) (name : Str) :
    c.s.incdirs.map (fun d => env.join d name) = candidates env U (fileOf c) name := by
  rcases hd.exact_ hcs with ⟨h1, h2, -⟩ | ⟨h1, h2, -⟩
  · simp [candidates, fileOf, h1, h2]
  · simp [candidates, fileOf, h1, h2]

/-- **C19**: wherever an include directive (outside of the text of a macro) is reached in a run on a file, the file that is
entered is the first existing candidate. Missing for the full property: includes inside of macro texts and in files
included from there (false, see below). -/
theorem C19_first_existing_partial (env : Env) (db : MacroDB) (U : List Str) (path enc : Str) (c0 c c' : Conf) (ls : List Nat)
    (line col : Nat) (a b : Char) (name : Str) (r : Nodes)
    (h0 : StartFile env db U path enc c0 ∨ StartStr env db U path enc c0) (hr : Reached env c0 ls c) (hcs : c.s.callStack = [])
    (hns : c.ns = .cons (.incl line col (.str (a :: name ++ [b]))) r) (hstep : Step env .file c c') :
    (candidates env U (fileOf c) name).find? env.fileExists = some c'.ctx.src := by
  have hd : DirInv env U c := by
    rcases h0 with h0 | h0
    · exact hr.dirInv h0.dirInv
    · exact hr.dirInv h0.dirInv
  rw [← visible_dirs hd hcs]
  cases hstep with
  | @incl n ctx line' col' a' r' out s q s1 file c' hi hs hlim hm hne =>
    simp only [Nodes.cons.injEq, Node.incl.injEq] at hns
    obtain ⟨⟨-, -, rfl⟩, -⟩ := hns
    simp only [incText, M.pure_apply, Prod.mk.injEq, Except.ok.injEq] at hi
    obtain ⟨rfl, rfl⟩ := hi
    rw [searchInc_eq] at hs
    obtain ⟨add, -⟩ := hm
    simpa using hs

/-- **C19**: if no candidate exists the whole run fails with a ParseException naming the file. -/
theorem C19_not_found (env : Env) (db : MacroDB) (U : List Str) (path enc : Str) (c0 c : Conf) (ls : List Nat)
    (line col : Nat) (a b : Char) (name : Str) (r : Nodes)
    (h0 : StartFile env db U path enc c0) (hr : Reached env c0 ls c) (hcs : c.s.callStack = [])
    (hns : c.ns = .cons (.incl line col (.str (a :: name ++ [b]))) r)
    (hno : ∀ f ∈ candidates env U (fileOf c) name, env.fileExists f = false) :
    (verilogPp env db U path enc).1 = .error (inputError c.ctx.src line col
      (a :: name ++ [b] ++ c! " was not found in include directories\n")) := by
  apply h0.fails
  apply hr.fails
  obtain ⟨n, ctx, ns, out, s⟩ := c
  simp only at hns
  subst hns
  have hd := visible_dirs (hr.dirInv h0.dirInv) hcs name
  simp only at hd
  unfold result
  simp only [visitNodes]
  apply Fails.bind
  rw [visitNode]
  unfold visitInclude incText
  rw [M.bind_ok (show (pure _ : M Str) s = (.ok _, s) from rfl), M.bind_ok (M.get_apply s)]
  have hs : searchInc env (a :: name ++ [b]) s.incdirs = .ok none := by
    rw [searchInc_eq, hd, List.find?_eq_none.2 (by simpa using hno)]
  rw [M.bind_lift hs]
  rfl

private def envI : Env := tableEnv 8
  [(c! "top", .cons (.incl 1 0 (.str (c! "\"b.v\""))) .nil)]
  [(c! "a/top.v", c! "top"), (c! "u/b.v", c! "U"), (c! "a/b.v", c! "A")]

/-- the user's directory wins over the own directory; without the user's directory the own directory is searched -/
example : (verilogPp envI [] [c! "v", c! "u"] (c! "a/top.v") (c! "utf-8")).1 = .ok (c! "U") := by decide
example : (verilogPp envI [] [c! "v"] (c! "a/top.v") (c! "utf-8")).1 = .ok (c! "A") := by decide
example : candidates envI [c! "v", c! "u"] (some (c! "a/top.v")) (c! "b.v") = [c! "v/b.v", c! "u/b.v", c! "a/b.v"] := by decide

private def envJ : Env := tableEnv 8
  [(c! "`M", .cons (call0 1 (c! "M")) .nil),
   (c! "`include \"sub/b.v\"", .cons (.incl 1 0 (.str (c! "\"sub/b.v\""))) .nil),
   (c! "b", .cons (.incl 1 0 (.str (c! "\"c.v\""))) .nil)]
  [(c! "a/top.v", c! "`M"), (c! "u/sub/b.v", c! "b"), (c! "a/c.v", c! "from a"), (c! "u/sub/c.v", c! "from u/sub")]

/-- **C19 is false** for a file included through a macro: `u/sub/b.v` includes "c.v"; candidates are `u/c.v` (user) and
`u/sub/c.v` (own directory, exists), but the code takes `a/c.v` from the directory of the file with the macro call. -/
theorem C19_violated_witness :
    (candidates envJ [c! "u"] (some (c! "u/sub/b.v")) (c! "c.v")).find? envJ.fileExists = some (c! "u/sub/c.v") ∧
    (verilogPp envJ [textMacro (c! "M") (c! "`include \"sub/b.v\"") true] [c! "u"] (c! "a/top.v") (c! "utf-8")).1 =
      .ok (c! "from a") := by decide

/-! ## C21 -/

/-- Lines (1-based) of the macro calls entered since the last file, and of the construct itself, as one line number. -/
def lineNo (ls : List Nat) (line : Nat) : Nat := (ls.map (· - 1)).sum + line

private theorem sum_line0 (ls : List Nat) (h : ∀ l ∈ ls, 1 ≤ l) : (ls.map line0).sum = BitVec.ofNat 64 ((ls.map (· - 1)).sum) := by
  induction ls with
  | nil => rfl
  | cons l r ih =>
    rw [List.map_cons, List.sum_cons, ih (fun x hx => h x (by simp [hx])), List.map_cons, List.sum_cons, BitVec.ofNat_add]
    congr 1
    have := h l (by simp)
    obtain ⟨k, rfl⟩ : ∃ k, l = k + 1 := ⟨l - 1, by omega⟩
    simp only [line0, BitVec.ofNat_add, Nat.add_sub_cancel]
    generalize BitVec.ofNat 64 k = x
    bv_omega

private theorem toDigits_no {n : Nat} {c : Char} (h : c ∈ Nat.toDigits 10 n) : c ≠ '`' := by
  have := Nat.isDigit_of_mem_toDigits (by decide) (by decide) h
  rintro rfl
  simp [Char.isDigit] at this

private theorem replace_no_backtick (s : Str) (hs : '`' ∉ s) (m r : Str) (hm : '`' ∈ m) : replaceSubstring s m r = .ok s := by
  apply C24_no_marker
  · rintro rfl; simp at hm
  · intro h; exact hs (h.subset hm)

private theorem expandCall_plain {env : Env} {rec : Rec} {ctx : Ctx} {c : Call} {out : OutBuf} {s : PState} {it : DbItem} {t : Str}
    (hf : s.db.find c.name = some it) (hr : firstReplacement it.obj c out = .ok t) (ht : '`' ∉ t) :
    expandCall env rec ctx c out s = (.ok t, s) := by
  unfold expandCall
  rw [M.bind_ok (M.get_apply s), hf]
  simp only [hr]
  have hp : paste env.lang t = .ok t := by
    unfold paste
    split
    · rw [replace_no_backtick t ht _ _ (by simp)]
      simp only [bind, Except.bind]
      rw [replace_no_backtick t ht _ _ (by simp)]
    · rfl
  rw [M.bind_lift hp]
  have hrs : rescan rec ctx c out.begin_ t s = (.ok t, s) := by
    unfold rescan
    rw [if_neg (by simpa using ht)]
    rfl
  rw [M.bind_ok hrs, M.lift_apply]
  have : unescape env.lang t = .ok t := by
    unfold unescape
    split
    · exact C22_no_marker t (fun h => ht (h.subset (by simp)))
    · rfl
  rw [this]

/-- **C21**: at every reached point of a run, `` `__LINE__ `` expands to the decimal number of its line; inside of macros it is
the line of the outermost call in the file plus the line offsets inside of the texts.
(`c.s.db.find "__LINE__"` is the predefined macro for SystemVerilog 2009 and later.) -/
theorem C21_line (env : Env) (db : MacroDB) (U : List Str) (path enc : Str) (c0 c : Conf) (ls : List Nat)
    (h0 : StartFile env db U path enc c0 ∨ StartStr env db U path enc c0) (hr : Reached env c0 ls c) (rec : Rec) (line col : Nat)
    (p : Bool) (hls : ∀ l ∈ ls, 1 ≤ l) (hsmall : lineNo ls line < 2 ^ 64)
    (hdef : c.s.db.find (c! "__LINE__") = some ⟨.line, p⟩) :
    expandCall env rec c.ctx ⟨line, col, c! "__LINE__", none⟩ c.out c.s = (.ok (Nat.toDigits 10 (lineNo ls line)), c.s) := by
  have hb : c0.out.begin_ = 0 := by
    rcases h0 with h0 | h0
    · obtain ⟨add, -, -, -, -, -, -, hset⟩ := h0
      exact setFileLine_begin hset
    · obtain ⟨_, _, _, -, -, hset, -, -, rfl⟩ := h0
      exact setFileLine_begin hset
  have hbeg := hr.begin_eq hb
  rw [sum_line0 ls hls] at hbeg
  apply expandCall_plain hdef
  · have : (c.out.begin_ + BitVec.ofNat 64 line).toNat = lineNo ls line := by
      rw [hbeg, ← BitVec.ofNat_add, BitVec.toNat_ofNat]
      exact Nat.mod_eq_of_lt hsmall
    simp [firstReplacement, MacroObj.requiresArgs, MacroObj.replace, this, dec, bind, Except.bind, pure, Except.pure]
  · intro hm; exact toDigits_no hm rfl

example : lineNo [] 7 = 7 ∧ lineNo [10, 3] 2 = 13 := by decide

private def envL : Env := tableEnv 8
  [(c! "src", .cons (.code 1 (c! "a\n\n")) (.cons (call0 3 (c! "__LINE__")) (.cons (.code 3 (c! "\n")) (.cons (call0 4 (c! "M")) .nil)))),
   (c! "x\n`__LINE__", .cons (.code 1 (c! "x\n")) (.cons (call0 2 (c! "__LINE__")) .nil))] []

example : (verilogPpStr envL [textMacro (c! "M") (c! "x\n`__LINE__") true] [] (c! "src") (c! "utf-8")).1 =
    .ok (c! "a\n\n3\nx\n5") := by decide

/-! ## C49 -/

private def envP : Env := tableEnv 8
  [(c! "src1", .cons (call0 1 (c! "M")) .nil),
   (c! "src2", .cons (.code 1 (c! "\n")) (.cons (call0 2 (c! "M")) .nil)),
   (c! "`undef Z\n`undef Z\n`undef Z\nx", .cons (.undef (c! "Z")) (.cons (.undef (c! "Z")) (.cons (.undef (c! "Z"))
      (.cons (.code 4 (c! "x")) .nil))))] []

/-- **C49 is false**: the same macro gives three newlines and `x` in line 1, but one newline and `x` in line 2. -/
theorem C49_violated_witness :
    let db := [textMacro (c! "M") (c! "`undef Z\n`undef Z\n`undef Z\nx") true]
    (verilogPpStr envP db [] (c! "src1") (c! "utf-8")).1 = .ok (c! "\n\n\nx") ∧
    (verilogPpStr envP db [] (c! "src2") (c! "utf-8")).1 = .ok (c! "\n" ++ c! "\nx") := by decide

/-- **C49** as far as it is proved: two calls of the same user macro with the same arguments at different places (line,
column, output so far, file) give the same text, if the substituted text has no back-tick. Missing: texts that are
preprocessed again (there it is false in general, see above). -/
theorem C49_plain_text_partial (env : Env) (rec rec' : Rec) (ctx ctx' : Ctx) (c c' : Call) (out out' : OutBuf) (s s' : PState)
    (m : MacroDef) (p p' : Bool) (hname : c.name = c'.name) (hargs : c.args = c'.args)
    (hf : s.db.find c.name = some ⟨.user m, p⟩) (hf' : s'.db.find c.name = some ⟨.user m, p'⟩) (t : Str)
    (ht : (expandCall env rec ctx c out s).1 = .ok t)
    (hplain : ∀ t0, firstReplacement (.user m) c out = .ok t0 → '`' ∉ t0) :
    (expandCall env rec' ctx' c' out' s').1 = .ok t := by
  have hsame : firstReplacement (.user m) c' out' = firstReplacement (.user m) c out := by
    simp only [firstReplacement, MacroObj.replace, hargs]
  cases hr : firstReplacement (.user m) c out with
  | error e =>
    unfold expandCall at ht
    rw [M.bind_ok (M.get_apply s), hf] at ht
    simp only [hr] at ht
    simp at ht
  | ok t0 =>
    have h0 := hplain t0 hr
    rw [expandCall_plain hf hr h0] at ht
    rw [expandCall_plain (it := ⟨.user m, p'⟩) (hname ▸ hf') (by rw [hsame]; exact hr) h0]
    exact ht

example : ∀ t0, firstReplacement (textMacro (c! "M") (c! "x\ny") true).2.obj ⟨1, 0, c! "M", none⟩ (OutBuf.new 0) = .ok t0 → '`' ∉ t0 := by
  intro t0 h
  have : firstReplacement (textMacro (c! "M") (c! "x\ny") true).2.obj ⟨1, 0, c! "M", none⟩ (OutBuf.new 0) = .ok (c! "x\ny") := by decide
  rw [this] at h
  simp at h
  subst h
  decide

/-! ## C51: `line -/

private def envD (line : Node) : Env := tableEnv 8
  [(c! "src", .cons line (.cons (.code 1 (c! "\n")) (.cons (call0 2 (c! "__LINE__")) (.cons (.code 2 (c! " ")) (.cons (call0 2 (c! "__FILE__")) .nil)))))] []

/-- **C51 is false**: behind `` `line 100 "f.v" 0 `` the line is still 2 (should be 100), and the name of the file has its quotes
twice (should be "f.v"). -/
theorem C51_violated_witness :
    (verilogPpStr (envD (.lineDir (c! "100") (c! "\"f.v\""))) [] [] (c! "src") (c! "utf-8")).1 =
      .ok (c! "\n2 \"\"f.v\"\"") := by decide

/-- **C51**, line part, in general: a `` `line `` directive never changes the number reported by `` `__LINE__ ``. -/
theorem C51_violated_general (env : Env) (rec : Rec) (ctx : Ctx) (num file : Str) (out o : OutBuf) (s s' : PState) (line col : Nat)
    (p : Bool) (hdef : s.db.find (c! "__LINE__") = some ⟨.line, p⟩)
    (h : visitNode env rec ctx (.lineDir num file) out s = (.ok o, s')) :
    expandCall env rec ctx ⟨line, col, c! "__LINE__", none⟩ o s' = expandCall env rec ctx ⟨line, col, c! "__LINE__", none⟩ out s := by
  rw [visitNode, M.lift_apply] at h
  simp only [Prod.mk.injEq] at h
  obtain ⟨h1, rfl⟩ := h
  have hb := setFileLine_begin h1
  have key : ∀ x : OutBuf, expandCall env rec ctx ⟨line, col, c! "__LINE__", none⟩ x s =
      (.ok (dec (x.begin_ + BitVec.ofNat 64 line).toNat), s) := by
    intro x
    apply expandCall_plain hdef
    · simp [firstReplacement, MacroObj.requiresArgs, MacroObj.replace, bind, Except.bind, pure, Except.pure]
    · intro hm; exact toDigits_no hm rfl
  rw [key, key, hb]

/-! ## C52: encoding of included files -/

private theorem enc_inv {env : Env} {c0 c : Conf} {ls : List Nat} {enc : Str} (hr : Reached env c0 ls c) (h0 : c0.ctx.enc = enc)
    (hcs : c.s.callStack = []) : c.ctx.enc = enc := by
  induction hr with
  | refl => exact h0
  | same _ hs ih =>
    cases hs with
    | next hv => exact ih (by rw [← (run_out env _ hv).2.2.1]; exact hcs)
    | branch => exact ih hcs
  | call _ hs ih =>
    cases hs with
    | call hm => obtain ⟨-⟩ := hm; simp at hcs
    | inclCall hm => obtain ⟨-⟩ := hm; simp at hcs
  | file _ hs ih =>
    cases hs with
    | incl hi _ _ hm _ =>
      obtain ⟨add, -⟩ := hm
      apply ih
      rw [← (incText_out env _ hi).2.2]
      split at hcs <;> exact hcs

/-- **C52**: every text that is read outside of macro expansions is decoded with the encoding the user gave. Missing for
the full property: files included in macro texts (false, see below). -/
theorem C52_encoding_partial (env : Env) (db : MacroDB) (U : List Str) (path enc : Str) (c0 c : Conf) (ls : List Nat)
    (h0 : StartFile env db U path enc c0) (hr : Reached env c0 ls c) (hcs : c.s.callStack = []) : c.ctx.enc = enc :=
  enc_inv hr (by obtain ⟨add, -⟩ := h0; rfl) hcs

private def envE : Env := tableEnv 8
  [(c! "`M", .cons (call0 1 (c! "M")) .nil), (c! "i", .cons (.incl 1 0 (.str (c! "\"b.v\""))) .nil),
   (c! "`include \"b.v\"", .cons (.incl 1 0 (.str (c! "\"b.v\""))) .nil)]
  [(c! "a/x.v", c! "`M"), (c! "a/y.v", c! "i"), (c! "a/b.v", [Char.ofNat 0xE9])]

/-- **C52 is false**: with 'iso-8859-1' the byte E9 of an included file is converted to UTF-8 if the include is written
directly (`a/y.v`), but not if it comes from a macro (`a/x.v`). -/
theorem C52_violated_witness :
    (verilogPp envE [] [] (c! "a/y.v") (c! "iso-8859-1")).1 = .ok [Char.ofNat 0xC3, Char.ofNat 0xA9] ∧
    (verilogPp envE [textMacro (c! "M") (c! "`include \"b.v\"") true] [] (c! "a/x.v") (c! "iso-8859-1")).1 =
      .ok [Char.ofNat 0xE9] := by decide

/-- Text tokens (with their lines) and the rest of the source. -/
def textThen : List (Nat × Str) → Nodes → Nodes
  | [], r => r
  | t :: ts, r => .cons (.code t.1 t.2) (textThen ts r)

private theorem fails_textThen {env : Env} {n : Nat} {ctx : Ctx} {r : Nodes} {s : PState} {e : Exc}
    (h : ∀ o : OutBuf, o.map ≠ [] → Fails (result env ⟨n, ctx, r, o, s⟩) e) (ts : List (Nat × Str)) :
    ∀ o : OutBuf, o.map ≠ [] → Fails (result env ⟨n, ctx, textThen ts r, o, s⟩) e := by
  induction ts with
  | nil => exact h
  | cons t ts ih =>
    intro o ho
    rcases setLine_cases o (line0 t.1) with ⟨o', h1, -, -, h4⟩ | ⟨-, h0⟩
    · refine (Step.next (o1 := o'.put t.2) (s1 := s) ?_).fails (ih _ (h4 ho))
      rw [visitNode, M.bind_lift h1]
      rfl
    · exact absurd h0 ho

/-! ## C54: endless macro recursion -/

/-- **C54**: a macro without parameters whose text has a call of itself (behind plain text) always ends in the ParseException
"Macro call stack overflow", wherever and in whichever state it is called; no other outcome is possible. -/
theorem C54_self_recursive_macro (env : Env) (h1 : 1 ≤ env.lang) (h2 : env.lang ≤ 8) (m : MacroDef) (name r0 r : Str) (p : Bool)
    (l k : Nat) (pre : List (Nat × Str)) (rest : Nodes)
    (hrep : m.replace [] false = .ok r0) (hnp : m.hasParams = false) (hpaste : paste env.lang r0 = .ok r) (hbt : '`' ∈ r)
    (hparse : env.parse r = .tree (textThen pre (.cons (.call ⟨l, k, name, none⟩) rest))) :
    ∀ (n : Nat) (ctx : Ctx) (line col : Nat) (s : PState), s.db.find name = some ⟨.user m, p⟩ →
      s.callStack.length ≤ maxCallStack → maxCallStack - s.callStack.length < n →
      ∃ src l' k', ∀ out, (expandCall env (run env n) ctx ⟨line, col, name, none⟩ out s).1 = .error (inputError src l' k'
        (c! "Macro call stack overflow " ++ vectorToString (s.callStack ++ List.replicate (maxCallStack - s.callStack.length) name) ++ c! ".")) := by
  intro n
  induction n with
  | zero => intro ctx line col s _ _ h; omega
  | succ n ih =>
    intro ctx line col s hf hle hn
    have hfr : ∀ out, firstReplacement (.user m) ⟨line, col, name, none⟩ out = .ok r0 := by
      intro out
      simp [firstReplacement, MacroObj.requiresArgs, MacroObj.replace, hnp, hrep, bind, Except.bind, pure, Except.pure]
    by_cases hfull : maxCallStack ≤ s.callStack.length
    · refine ⟨ctx.src, line, col, fun out => ?_⟩
      have : maxCallStack - s.callStack.length = 0 := by omega
      rw [this, List.replicate_zero, List.append_nil]
      unfold expandCall
      rw [M.bind_ok (M.get_apply s)]
      simp only [hf, hfr out]
      rw [M.bind_lift hpaste]
      apply Fails.bind
      unfold rescan
      rw [if_pos (by simpa using hbt), M.bind_ok (M.get_apply s), if_pos hfull]
      rfl
    · obtain ⟨src, l', k', he⟩ := ih ⟨s.incStack.getLast?.getD (c! "<string>"), false, c! "utf-8"⟩ l k
        { s with callStack := s.callStack ++ [name] } hf (by simp; omega) (by simp; omega)
      refine ⟨src, l', k', fun out => ?_⟩
      obtain ⟨o1, hset, -, -, hm⟩ := setFileLine_total (OutBuf.new (out.begin_ + line0 line)) (s.incStack.getLast?.getD (c! "<string>")) 0
      have hrun : MacroRun env n ⟨line, col, name, none⟩ out s _ :=
        MacroRun.intro (n := n) hf (hfr out) hpaste (by simpa using hbt) (by omega) h1 h2 hparse hset
      apply hrun.fails ctx
      refine fails_textThen (fun o _ => ?_) pre o1 hm
      unfold result
      simp only [visitNodes]
      apply Fails.bind
      rw [visitNode]
      apply Fails.bind
      have hlist : s.callStack ++ [name] ++ List.replicate (maxCallStack - (s.callStack ++ [name]).length) name =
          s.callStack ++ List.replicate (maxCallStack - s.callStack.length) name := by
        have : maxCallStack - s.callStack.length = (maxCallStack - (s.callStack ++ [name]).length) + 1 := by simp; omega
        rw [this, List.replicate_succ, List.append_assoc]
        rfl
      have he := he o
      simp only [hlist] at he
      exact he

/-- the hypotheses are met by `` `define M `M `` -/
example : (⟨c! "M", false, [], [.lit (c! "`M")]⟩ : MacroDef).replace [] false = .ok (c! "`M") ∧ paste 8 (c! "`M") = .ok (c! "`M") ∧
    '`' ∈ (c! "`M") := by decide

/-! ## C55: a file that includes itself -/

/-- **C55**: a file with an include (behind plain text) which resolves to the same file ends in the ParseException
"Nested include limit reach" with the whole chain of 101 files. -/
theorem C55_self_including_file (env : Env) (db : MacroDB) (U : List Str) (path enc bytes txt name : Str) (a b : Char)
    (l k : Nat) (pre : List (Nat × Str)) (rest : Nodes) (h1 : 1 ≤ env.lang) (h2 : env.lang ≤ 8)
    (hread : env.readFile path = .ok bytes) (hutf : toUtf8 bytes enc = .ok txt)
    (hparse : env.parse txt = .tree (textThen pre (.cons (.incl l k (.str (a :: name ++ [b]))) rest)))
    (hfound : (candidates env U (some path) name).find? env.fileExists = some path) :
    (verilogPp env db U path enc).1 = .error (inputError path l k (c! "Nested include limit reach\n" ++
      (List.replicate (includeDepthLimit + 1) path).flatMap (fun f => c! "    " ++ f ++ c! "\n"))) := by
  -- a point at the beginning of the file, at depth `d`
  have key : ∀ (j n d : Nat) (c : Conf), d + j = includeDepthLimit → d ≤ includeDepthLimit → includeDepthLimit - d < n →
      ∀ out s, s.callStack = [] → s.incStack = List.replicate d path → s.incdirs = U →
      FileRun env n path enc out s c → Fails (result env c) (inputError path l k (c! "Nested include limit reach\n" ++
      (List.replicate (includeDepthLimit + 1) path).flatMap (fun f => c! "    " ++ f ++ c! "\n"))) := by
    intro j
    induction j with
    | zero =>
      intro n d c hdj hd hn out s hcs hst hinc hrun
      have hinv := hrun.dirInv (U := U) ⟨[], by simp [hinc], by simp⟩ (fun _ => hinc)
      obtain ⟨add, hadd, hread', hutf', -, -, hparse', hset⟩ := hrun
      rw [hread] at hread'; cases hread'
      rw [hutf] at hutf'; cases hutf'
      rw [hparse] at hparse'; cases hparse'
      obtain ⟨o0, ho0, -, -, hm0⟩ := setFileLine_total out path 0
      rw [ho0] at hset; obtain rfl := Except.ok.inj hset
      refine fails_textThen (fun o _ => ?_) pre _ hm0
      unfold result
      simp only [visitNodes]
      apply Fails.bind
      rw [visitNode]
      unfold visitInclude incText
      rw [M.bind_ok (show (pure _ : M Str) _ = (.ok _, _) from rfl), M.bind_ok (M.get_apply _)]
      have hs := visible_dirs hinv hcs name
      simp only [fileOf, List.getLast?_append_of_ne_nil _ (List.cons_ne_nil path []), List.getLast?_singleton] at hs
      have hs' : searchInc env (a :: name ++ [b]) (if add then s.incdirs ++ [env.parent path] else s.incdirs) = .ok (some path) := by
        rw [searchInc_eq, hs, hfound]
      rw [M.bind_lift hs']
      simp only
      rw [if_pos (by simp [hst]; omega)]
      have : s.incStack ++ [path] = List.replicate (includeDepthLimit + 1) path := by
        rw [hst, show d = includeDepthLimit by omega, List.replicate_succ']
      simp only [this]
      rfl
    | succ j ih =>
      intro n d c hdj hd hn out s hcs hst hinc hrun
      obtain ⟨n, rfl⟩ : ∃ n', n = n' + 1 := ⟨n - 1, by omega⟩
      have hinv := hrun.dirInv (U := U) ⟨[], by simp [hinc], by simp⟩ (fun _ => hinc)
      obtain ⟨add, hadd, hread', hutf', -, -, hparse', hset⟩ := hrun
      rw [hread] at hread'; cases hread'
      rw [hutf] at hutf'; cases hutf'
      rw [hparse] at hparse'; cases hparse'
      have hs := visible_dirs hinv hcs name
      simp only [fileOf, List.getLast?_append_of_ne_nil _ (List.cons_ne_nil path []), List.getLast?_singleton] at hs
      have hs' : searchInc env (a :: name ++ [b]) (if add then s.incdirs ++ [env.parent path] else s.incdirs) = .ok (some path) := by
        rw [searchInc_eq, hs, hfound]
      obtain ⟨o1, hset1, -⟩ := setFileLine_total (OutBuf.new 0) path 0
      have hnext : ∃ c', FileRun env n path enc (OutBuf.new 0)
          (if add then { s with
              incdirs := (if add then s.incdirs ++ [env.parent path] else s.incdirs).dropLast
              incStack := s.incStack ++ [path] }
            else { s with incdirs := if add then s.incdirs ++ [env.parent path] else s.incdirs
                          incStack := s.incStack ++ [path] }) c' := by
        refine ⟨_, FileRun.intro add ?_ hread hutf h1 h2 hparse hset1⟩
        cases add <;> simpa using hadd
      obtain ⟨c', hc'⟩ := hnext
      have hfail := ih n (d + 1) c' (by omega) (by omega) (by omega) _ _ (by split <;> exact hcs)
        (by split <;> simp [hst, List.replicate_succ']) (by cases add <;> simp [hinc]) hc'
      obtain ⟨o0, ho0, -, -, hm0⟩ := setFileLine_total out path 0
      rw [ho0] at hset; obtain rfl := Except.ok.inj hset
      refine fails_textThen (fun o _ => ?_) pre _ hm0
      exact (Step.incl (ctx := ⟨path, add, enc⟩) (line := l) (col := k) (q := a :: name ++ [b]) (file := path) rfl hs'
        (by simp [hst]; omega) hc' (by cases add <;> simp)).fails hfail
  obtain ⟨o1, hset1, -⟩ := setFileLine_total (OutBuf.new 0) path 0
  obtain ⟨add, hadd⟩ : ∃ add : Bool, add = false ↔ env.parent path ∈ U :=
    ⟨!decide (env.parent path ∈ U), by simp⟩
  have hstart : StartFile env db U path enc _ := FileRun.intro (s := initState env db U) add hadd hread hutf h1 h2 hparse hset1
  exact hstart.fails (key includeDepthLimit (FUEL - 1) 0 _ (by omega) (by omega) (by decide) _ _ rfl rfl rfl hstart)

private def envS : Env := tableEnv 8 [(c! "s", .cons (.incl 1 0 (.str (c! "\"s.v\""))) .nil)] [(c! "d/s.v", c! "s")]
example : (candidates envS [] (some (c! "d/s.v")) (c! "s.v")).find? envS.fileExists = some (c! "d/s.v") := by decide

/-! ## C56: no undefined behaviour besides `undef` -/

/-- **C56**: for every encoding but 'utf-16' the run never executes undefined behaviour that the model stops at: the line map
is never read when it is empty, no include directory is popped from an empty list, no argument is read out of range. -/
theorem C56_no_ub (env : Env) (db : MacroDB) (U : List Str) (x enc : Str) (henc : enc ≠ c! "utf-16") :
    (verilogPpStr env db U x enc).1 ≠ .error .ub ∧ (verilogPp env db U x enc).1 ≠ .error .ub := by
  constructor
  · have h := (runStr_res (run_res env FUEL) x enc (OutBuf.new 0) (initState env db U)).2.1 henc
    unfold verilogPpStr
    rcases hx : runStr (run env FUEL) x enc (OutBuf.new 0) (initState env db U) with ⟨e | o, s⟩
    · rw [hx] at h; rw [M.bind_error hx]; simpa using h
    · rw [M.bind_ok hx]; simp
  · have h := (runFile_res env (run_res env FUEL) x enc (OutBuf.new 0) (initState env db U) (by simp [initState])).2.1 henc
    unfold verilogPp
    rcases hx : runFile env (run env FUEL) x enc (OutBuf.new 0) (initState env db U) with ⟨e | o, s⟩
    · rw [hx] at h; rw [M.bind_error hx]; simpa using h
    · rw [M.bind_ok hx]; simp

end Verif
