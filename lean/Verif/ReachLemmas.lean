import Verif.Spec.Reach
import Verif.PreprocMono
/-!
# Helper lemmas: errors at reached points make the whole run fail; invariants of reached points
-/
namespace Verif
open Spec

theorem find_isSome_iff {db : MacroDB} {k : Str} : (db.find k).isSome = true ↔ Defined db k := by
  constructor
  · intro h
    obtain ⟨v, hv⟩ := Option.isSome_iff_exists.1 h
    exact ⟨v, MacroDB.find_some_mem hv⟩
  · rintro ⟨v, hv⟩
    cases hf : db.find k with
    | some _ => rfl
    | none => exact absurd rfl (MacroDB.find_none_iff.1 hf _ hv)

theorem find_none_iff_not {db : MacroDB} {k : Str} : db.find k = none ↔ ¬ Defined db k := by
  rw [← find_isSome_iff]; simp

theorem cond_iff {db : MacroDB} {k : Str} {neg : Bool} :
    ((db.find k).isSome == !neg) = true ↔ (Defined db k ↔ neg = false) := by
  rw [← find_isSome_iff]
  cases (db.find k).isSome <;> cases neg <;> simp

theorem visitBranches_taken {env : Env} {rec : Rec} {ctx : Ctx} {neg : Bool} {b : Branches} {out : OutBuf} {s : PState}
    {line : Nat} {g : Nodes} (h : Taken neg s.db b line g) :
    visitBranches env rec ctx neg b out s = (do
      let o ← M.lift (out.setLine (line0 line))
      visitNodes env rec ctx g o : M OutBuf) s := by
  induction h with
  | here hc => rw [visitBranches, M.bind_ok (M.get_apply s), if_pos (cond_iff.2 hc)]
  | els => rw [visitBranches]
  | later hc _ ih =>
    rw [visitBranches, M.bind_ok (M.get_apply s), if_neg (by rw [cond_iff]; exact hc), ih]

/-- A piece of the run fails if ... -/
def Fails {α : Type} (r : Except Exc α × PState) (e : Exc) : Prop := r.1 = .error e

theorem Fails.bind {α β : Type} {m : M α} {f : α → M β} {s : PState} {e : Exc} (h : Fails (m s) e) : Fails ((m >>= f) s) e := by
  rcases hm : m s with ⟨e' | a, s1⟩
  · rw [M.bind_error hm]; rw [hm] at h; simpa [Fails] using h
  · rw [hm] at h; simp [Fails] at h

theorem Fails.bind_right {α β : Type} {m : M α} {f : α → M β} {s s1 : PState} {a : α} {e : Exc} (h : m s = (.ok a, s1))
    (h' : Fails (f a s1) e) : Fails ((m >>= f) s) e := by
  rw [M.bind_ok h]; exact h'

theorem run_tree {env : Env} {n : Nat} {ctx : Ctx} {txt : Str} {t : Nodes} (h : env.parse txt = .tree t) (h1 : 1 ≤ env.lang)
    (h2 : env.lang ≤ 8) (o : OutBuf) : run env (n + 1) ctx txt o = visitNodes env (run env n) ctx t o := by
  rw [run, h]; simp [h1, h2]

theorem Spec.MacroRun.fails {env : Env} {n : Nat} {c : Call} {out : OutBuf} {s : PState} {c' : Conf} {e : Exc} (ctx : Ctx)
    (h : MacroRun env n c out s c') (hf : Fails (result env c') e) : Fails (expandCall env (run env (n + 1)) ctx c out s) e := by
  obtain ⟨hfind, hrep, hpaste, hbt, hcs, hl1, hl2, hparse, hset⟩ := h
  unfold expandCall
  rw [M.bind_ok (M.get_apply s), hfind]
  simp only [hrep]
  rw [M.bind_ok (show M.lift _ s = _ from by rw [M.lift_apply, hpaste])]
  apply Fails.bind
  unfold rescan
  rw [if_pos hbt, M.bind_ok (M.get_apply s), if_neg (by omega), M.bind_ok (M.modify_apply _ s)]
  apply Fails.bind
  unfold runStr
  rw [M.bind_ok (M.get_apply _)]
  simp only
  rw [M.bind_ok (show M.lift _ _ = _ from by rw [M.lift_apply, hset])]
  rw [M.bind_ok (show M.lift (toUtf8 _ (c! "utf-8")) _ = _ from by rw [M.lift_apply]; rfl)]
  rw [run_tree hparse hl1 hl2]
  exact hf

theorem Spec.FileRun.fails {env : Env} {n : Nat} {path enc : Str} {out : OutBuf} {s : PState} {c' : Conf} {e : Exc}
    (h : FileRun env n path enc out s c') (hf : Fails (result env c') e) : Fails (runFile env (run env (n + 1)) path enc out s) e := by
  obtain ⟨add, hadd, hread, hutf, hl1, hl2, hparse, hset⟩ := h
  unfold runFile
  rw [M.bind_ok (M.get_apply s)]
  have hadd' : (!(s.incdirs.contains (env.parent path))) = add := by
    cases add <;> simp at hadd ⊢ <;> exact hadd
  rw [hadd']
  unfold runFileIn
  rw [M.bind_ok (M.modify_apply _ s)]
  rw [M.bind_ok (show M.lift _ _ = _ from by rw [M.lift_apply, hread]; rfl)]
  rw [M.bind_ok (show M.lift _ _ = _ from by rw [M.lift_apply, hutf])]
  rw [M.bind_ok (show M.lift _ _ = _ from by rw [M.lift_apply, hset])]
  apply Fails.bind
  rw [run_tree hparse hl1 hl2]
  exact hf

theorem Spec.Step.fails {env : Env} {k : Kind} {c c' : Conf} {e : Exc} (h : Step env k c c') (hf : Fails (result env c') e) :
    Fails (result env c) e := by
  unfold result at hf ⊢
  cases h with
  | next hv => simp only [visitNodes]; exact Fails.bind_right hv hf
  | branch ht hs =>
    simp only [visitNodes]
    apply Fails.bind
    rw [visitNode, visitBranches_taken ht, M.bind_ok (show M.lift _ _ = _ from by rw [M.lift_apply, hs])]
    exact hf
  | call hm =>
    simp only [visitNodes]
    apply Fails.bind
    rw [visitNode]
    apply Fails.bind
    exact hm.fails _ hf
  | inclCall hm =>
    simp only [visitNodes]
    apply Fails.bind
    rw [visitNode]
    unfold visitInclude
    apply Fails.bind
    unfold incText
    exact hm.fails _ hf
  | @incl n ctx line col a r out s q s1 file c' hi hs hd hr hne =>
    simp only [visitNodes]
    apply Fails.bind
    rw [visitNode]
    unfold visitInclude
    rw [M.bind_ok hi, M.bind_ok (M.get_apply _), M.bind_ok (show M.lift _ _ = _ from by rw [M.lift_apply, hs])]
    simp only
    rw [if_neg (by omega)]
    unfold runInclude
    rw [M.bind_ok (M.get_apply _)]
    have hx := hr.fails hf
    cases hadd : ctx.added with
    | true =>
      rw [if_pos rfl]
      rw [hadd, if_pos rfl] at hx
      cases hl : s1.incdirs.getLast? with
      | none => exact absurd (by simpa using hl) (hne hadd)
      | some my =>
        simp only
        rw [M.bind_ok (M.modify_apply _ _)]
        exact Fails.bind hx
    | false =>
      rw [if_neg (by simp)]
      rw [hadd, if_neg (by simp)] at hx
      exact Fails.bind hx

theorem Spec.Reached.fails {env : Env} {c0 c : Conf} {ls : List Nat} {e : Exc} (h : Reached env c0 ls c)
    (hf : Fails (result env c) e) : Fails (result env c0) e := by
  induction h with
  | refl => exact hf
  | same _ hs ih => exact ih (hs.fails hf)
  | call _ hs ih => exact ih (hs.fails hf)
  | file _ hs ih => exact ih (hs.fails hf)

theorem Spec.StartStr.fails {env : Env} {db : MacroDB} {incdirs : List Str} {text enc : Str} {c : Conf} {e : Exc}
    (h : StartStr env db incdirs text enc c) (hf : Fails (result env c) e) :
    Fails (verilogPpStr env db incdirs text enc) e := by
  obtain ⟨txt, t, o1, hutf, hparse, hset, hl1, hl2, rfl⟩ := h
  unfold verilogPpStr
  apply Fails.bind
  unfold runStr
  rw [M.bind_ok (M.get_apply _)]
  rw [M.bind_ok (show M.lift _ _ = _ from by rw [M.lift_apply]; exact congrArg (·, _) hset)]
  rw [M.bind_ok (show M.lift _ _ = _ from by rw [M.lift_apply, hutf])]
  rw [show FUEL = (FUEL - 1) + 1 from rfl, run_tree hparse hl1 hl2]
  exact hf

theorem Spec.StartFile.fails {env : Env} {db : MacroDB} {incdirs : List Str} {path enc : Str} {c : Conf} {e : Exc}
    (h : StartFile env db incdirs path enc c) (hf : Fails (result env c) e) :
    Fails (verilogPp env db incdirs path enc) e := by
  unfold verilogPp
  apply Fails.bind
  rw [show FUEL = (FUEL - 1) + 1 from rfl]
  exact Spec.FileRun.fails h hf

/-! ## invariants -/

theorem run_out (env : Env) (n : Nat) {ctx : Ctx} {nd : Node} {out o : OutBuf} {s s1 : PState}
    (h : visitNode env (run env n) ctx nd out s = (.ok o, s1)) :
    s1.incdirs = s.incdirs ∧ s1.incStack = s.incStack ∧ s1.callStack = s.callStack ∧ o.begin_ = out.begin_ := by
  have := visitNode_res env (run_res env n) ctx nd out s
  rw [h] at this
  obtain ⟨h1, h2, h3⟩ := this.stackEq o rfl
  exact ⟨h1, h2, h3, (this.outOk o rfl).1⟩

theorem incText_out (env : Env) (n : Nat) {ctx : Ctx} {a : IncArg} {out : OutBuf} {s s1 : PState} {q : Str}
    (h : incText env (run env n) ctx out a s = (.ok q, s1)) :
    s1.incdirs = s.incdirs ∧ s1.incStack = s.incStack ∧ s1.callStack = s.callStack := by
  cases a with
  | str q' => simp only [incText, M.pure_apply, Prod.mk.injEq] at h; rw [← h.2]; simp
  | call c =>
    have := expandCall_res env (run_res env n) ctx c out s
    change expandCall env (run env n) ctx c out s = _ at h
    rw [h] at this
    exact this.stackEq q rfl

theorem setFileLine_begin {o o' : OutBuf} {f : Str} {n : W} (h : o.setFileLine f n = .ok o') : o'.begin_ = o.begin_ := by
  obtain ⟨o1, h1, h2, _⟩ := setFileLine_total o f n
  rw [h] at h1; simp at h1; rw [h1]; exact h2

theorem setLine_begin {o o' : OutBuf} {n : W} (h : o.setLine n = .ok o') : o'.begin_ = o.begin_ := by
  rcases setLine_cases o n with ⟨o1, h1, h2, _⟩ | ⟨h1, _⟩
  · rw [h] at h1; simp at h1; rw [h1]; exact h2
  · rw [h] at h1; simp at h1

/-- Start of the numbering of the text at a reached point. -/
theorem Spec.Reached.begin_eq {env : Env} {c0 c : Conf} {ls : List Nat} (h : Reached env c0 ls c) (h0 : c0.out.begin_ = 0) :
    c.out.begin_ = (ls.map line0).sum := by
  induction h with
  | refl => simpa using h0
  | same _ hs ih =>
    cases hs with
    | next hv => rw [← ih]; exact (run_out env _ hv).2.2.2
    | branch _ hs => rw [← ih]; exact setLine_begin hs
  | call _ hs ih =>
    cases hs with
    | call hm => obtain ⟨-, -, -, -, -, -, -, -, hset⟩ := hm; simp [setFileLine_begin hset, OutBuf.new, ← ih]
    | inclCall hm => obtain ⟨-, -, -, -, -, -, -, -, hset⟩ := hm; simp [setFileLine_begin hset, OutBuf.new, ← ih]
  | file _ hs ih =>
    cases hs with
    | incl _ _ _ hm _ => obtain ⟨_, -, -, -, -, -, -, hset⟩ := hm; simp [setFileLine_begin hset, OutBuf.new]

/-- The own directory of a file, as far as it is not among the user's directories anyway. -/
def ownDir (env : Env) (U : List Str) (file : Str) : List Str := if env.parent file ∈ U then [] else [env.parent file]

/-- What holds of the directories and files at a reached point, for a run started on the directories `U`. -/
structure DirInv (env : Env) (U : List Str) (c : Conf) : Prop where
  /-- there are only directories of files being processed besides the user's -/
  only : ∃ ds, c.s.incdirs = U ++ ds ∧ ∀ d ∈ ds, ∃ f ∈ c.s.incStack, env.parent f = d
  added : c.ctx.added = true → ∃ ds, c.s.incdirs = U ++ ds ++ [env.parent c.ctx.src] ∧
    ∀ d ∈ ds, ∃ f ∈ c.s.incStack, env.parent f = d
  /-- outside of macros: exactly the own directory -/
  exact_ : c.s.callStack = [] →
    (c.s.incStack = [] ∧ c.s.incdirs = U ∧ c.ctx.added = false) ∨
    (c.s.incStack.getLast? = some c.ctx.src ∧ c.s.incdirs = U ++ ownDir env U c.ctx.src ∧
      (c.ctx.added = true ↔ env.parent c.ctx.src ∉ U))

theorem Spec.FileRun.dirInv {env : Env} {n : Nat} {path enc : Str} {out : OutBuf} {s : PState} {c : Conf} {U : List Str}
    (h : FileRun env n path enc out s c) (h1 : ∃ ds, s.incdirs = U ++ ds ∧ ∀ d ∈ ds, ∃ f ∈ s.incStack, env.parent f = d)
    (h2 : s.callStack = [] → s.incdirs = U) : DirInv env U c := by
  obtain ⟨add, hadd, -⟩ := h
  obtain ⟨ds, hds, hfs⟩ := h1
  have hfs' : ∀ d ∈ ds, ∃ f ∈ s.incStack ++ [path], env.parent f = d := by
    intro d hd
    obtain ⟨f, hf, he⟩ := hfs d hd
    exact ⟨f, List.mem_append.2 (.inl hf), he⟩
  refine ⟨?_, ?_, ?_⟩
  · cases add with
    | true =>
      refine ⟨ds ++ [env.parent path], by simp [hds], ?_⟩
      intro d hd
      rw [List.mem_append] at hd
      rcases hd with hd | hd
      · exact hfs' d hd
      · simp at hd; subst hd; exact ⟨path, by simp, rfl⟩
    | false => exact ⟨ds, by simp [hds], hfs'⟩
  · intro ha
    simp only at ha; subst ha
    exact ⟨ds, by simp [hds], hfs'⟩
  · intro hc
    right
    have hU := h2 hc
    simp only at hc ⊢
    rw [hU] at hadd
    refine ⟨by simp, ?_, ?_⟩
    · unfold ownDir
      cases add <;> simp at hadd <;> simp [hadd, hU]
    · cases add <;> simp at hadd <;> simp [hadd]

theorem Spec.Step.dirInv {env : Env} {U : List Str} {k : Kind} {c c' : Conf} (h : Step env k c c') (hi : DirInv env U c) : DirInv env U c' := by
  obtain ⟨i1, i2, i3⟩ := hi
  cases h with
  | next hv =>
    obtain ⟨h1, h2, h3, -⟩ := run_out env _ hv
    exact ⟨by simpa only [h1, h2] using i1, by simpa only [h1, h2] using i2, by simpa only [h1, h2, h3] using i3⟩
  | branch => exact ⟨i1, i2, i3⟩
  | call hm => obtain ⟨-⟩ := hm; exact ⟨i1, by simp, by simp⟩
  | inclCall hm => obtain ⟨-⟩ := hm; exact ⟨i1, by simp, by simp⟩
  | @incl n ctx line col a r out s q s1 file c' hi hs hd hr hne =>
    obtain ⟨h1, h2, h3⟩ := incText_out env _ hi
    apply hr.dirInv
    · split
      · rename_i ha
        obtain ⟨ds, e1, e2⟩ := i2 ha
        refine ⟨ds, ?_, ?_⟩
        · simp only at e1 ⊢; rw [h1, e1]; simp
        · simpa only [h2] using e2
      · simpa only [h1, h2] using i1
    · intro hc
      have hc' : s.callStack = [] := by split at hc <;> simpa [h3] using hc
      rcases i3 hc' with ⟨-, e2, e3⟩ | ⟨-, e2, e3⟩
      · simp only at e2 e3; rw [e3]; simp [h1, e2]
      · simp only at e2 e3
        unfold ownDir at e2
        split
        · rename_i ha
          rw [if_neg (e3.1 ha)] at e2
          simp [h1, e2]
        · rename_i ha
          rw [if_pos (by by_contra hcon; exact ha (e3.2 hcon))] at e2
          simp [h1, e2]

theorem Spec.Reached.dirInv {env : Env} {U : List Str} {c0 c : Conf} {ls : List Nat} (h : Reached env c0 ls c)
    (hi : DirInv env U c0) : DirInv env U c := by
  induction h with
  | refl => exact hi
  | same _ hs ih => exact hs.dirInv ih
  | call _ hs ih => exact hs.dirInv ih
  | file _ hs ih => exact hs.dirInv ih

theorem Spec.StartStr.dirInv {env : Env} {db : MacroDB} {U : List Str} {text enc : Str} {c : Conf}
    (h : StartStr env db U text enc c) : DirInv env U c := by
  obtain ⟨txt, t, o1, -, -, -, -, -, rfl⟩ := h
  exact ⟨⟨[], by simp [initState], by simp⟩, by simp, fun _ => .inl ⟨rfl, rfl, rfl⟩⟩

theorem Spec.StartFile.dirInv {env : Env} {db : MacroDB} {U : List Str} {text enc : Str} {c : Conf}
    (h : StartFile env db U text enc c) : DirInv env U c :=
  Spec.FileRun.dirInv h ⟨[], by simp [initState], by simp⟩ (fun _ => rfl)

end Verif
