import Verif.PreprocLemmas
/-!
# The nesting bound of the model is only an artefact: more of it never changes a result
-/
namespace Verif

/-- `m'` gives the same as `m` unless `m` ran out of the bound. -/
def MLe {α : Type} (m m' : M α) : Prop := ∀ s, (m s).1 ≠ .error .fuel → m' s = m s

theorem MLe.refl {α : Type} (m : M α) : MLe m m := fun _ _ => rfl

theorem MLe.bind {α β : Type} {m m' : M α} {f f' : α → M β} (h : MLe m m') (hf : ∀ a, MLe (f a) (f' a)) :
    MLe (m >>= f) (m' >>= f') := by
  intro s hs
  rcases hm : m s with ⟨e | a, s1⟩
  · rw [M.bind_error hm] at hs ⊢
    have := h s (by rw [hm]; simpa using hs)
    rw [hm] at this
    rw [M.bind_error this]
  · rw [M.bind_ok hm] at hs ⊢
    have := h s (by rw [hm]; simp)
    rw [hm] at this
    rw [M.bind_ok this]
    exact hf a s1 hs

theorem MLe.bindR {α β : Type} {m : M α} {f f' : α → M β} (hf : ∀ a, MLe (f a) (f' a)) : MLe (m >>= f) (m >>= f') :=
  (MLe.refl m).bind hf

def RecLe (rec rec' : Rec) : Prop := ∀ ctx text out, MLe (rec ctx text out) (rec' ctx text out)

set_option linter.unusedSectionVars false

section
variable {rec rec' : Rec} (env : Env) (h : RecLe rec rec')
include h

theorem runStr_mono (text enc : Str) (out : OutBuf) : MLe (runStr rec text enc out) (runStr rec' text enc out) := by
  unfold runStr
  exact MLe.bindR fun s => MLe.bindR fun o => MLe.bindR fun t => h _ _ _

theorem runFile_mono (path enc : Str) (out : OutBuf) : MLe (runFile env rec path enc out) (runFile env rec' path enc out) := by
  unfold runFile
  refine MLe.bindR fun s => ?_
  unfold runFileIn
  exact MLe.bindR fun _ => MLe.bindR fun _ => MLe.bindR fun _ => MLe.bindR fun _ =>
    (h _ _ _).bind fun _ => MLe.refl _

theorem rescan_mono (ctx : Ctx) (c : Call) (b : W) (r : Str) : MLe (rescan rec ctx c b r) (rescan rec' ctx c b r) := by
  unfold rescan
  split
  · refine MLe.bindR fun s => ?_
    split
    · exact MLe.refl _
    · exact MLe.bindR fun _ => (runStr_mono h _ _ _).bind fun _ => MLe.refl _
  · exact MLe.refl _

theorem expandCall_mono (ctx : Ctx) (c : Call) (out : OutBuf) :
    MLe (expandCall env rec ctx c out) (expandCall env rec' ctx c out) := by
  unfold expandCall
  refine MLe.bindR fun s => ?_
  split
  · exact MLe.refl _
  · split
    · exact MLe.refl _
    · exact MLe.bindR fun _ => (rescan_mono h _ _ _ _).bind fun _ => MLe.refl _

theorem runInclude_mono (ctx : Ctx) (f : Str) (out : OutBuf) :
    MLe (runInclude env rec ctx f out) (runInclude env rec' ctx f out) := by
  unfold runInclude
  refine MLe.bindR fun s => ?_
  split
  · split
    · exact MLe.refl _
    · exact MLe.bindR fun _ => (runFile_mono env h _ _ _).bind fun _ => MLe.refl _
  · exact (runFile_mono env h _ _ _).bind fun _ => MLe.refl _

theorem visitInclude_mono (ctx : Ctx) (l k : Nat) (a : IncArg) (out : OutBuf) :
    MLe (visitInclude env rec ctx l k a out) (visitInclude env rec' ctx l k a out) := by
  unfold visitInclude
  refine MLe.bind ?_ fun q => MLe.bindR fun s => MLe.bindR fun f => ?_
  · cases a with
    | str q => exact MLe.refl _
    | call c => exact expandCall_mono env h ctx c out
  · split
    · exact MLe.refl _
    · split
      · exact MLe.refl _
      · exact runInclude_mono env h _ _ _

mutual
theorem visitNode_mono (ctx : Ctx) (nd : Node) (out : OutBuf) :
    MLe (visitNode env rec ctx nd out) (visitNode env rec' ctx nd out) := by
  cases nd with
  | code line t => rw [visitNode, visitNode]; exact MLe.refl _
  | define d => rw [visitNode, visitNode]; exact MLe.refl _
  | cond neg b => rw [visitNode, visitNode]; exact visitBranches_mono ctx neg b out
  | call c =>
    rw [visitNode, visitNode]
    exact (expandCall_mono env h ctx c out).bind fun _ => MLe.refl _
  | undef name => rw [visitNode, visitNode]; exact MLe.refl _
  | undefineall => rw [visitNode, visitNode]; exact MLe.refl _
  | incl line col a => rw [visitNode, visitNode]; exact visitInclude_mono env h _ _ _ _ _
  | lineDir num file => rw [visitNode, visitNode]; exact MLe.refl _
  | nop => rw [visitNode, visitNode]; exact MLe.refl _
termination_by sizeOf nd
theorem visitNodes_mono (ctx : Ctx) (ns : Nodes) (out : OutBuf) :
    MLe (visitNodes env rec ctx ns out) (visitNodes env rec' ctx ns out) := by
  cases ns with
  | nil => rw [visitNodes, visitNodes]; exact MLe.refl _
  | cons nd r =>
    rw [visitNodes, visitNodes]
    exact (visitNode_mono ctx nd out).bind fun o => visitNodes_mono ctx r o
termination_by sizeOf ns
theorem visitBranches_mono (ctx : Ctx) (neg : Bool) (b : Branches) (out : OutBuf) :
    MLe (visitBranches env rec ctx neg b out) (visitBranches env rec' ctx neg b out) := by
  cases b with
  | endif => rw [visitBranches, visitBranches]; exact MLe.refl _
  | els line g =>
    rw [visitBranches, visitBranches]
    exact MLe.bindR fun o => visitNodes_mono ctx g o
  | elif cond line g r =>
    rw [visitBranches, visitBranches]
    refine MLe.bindR fun s => ?_
    split
    · exact MLe.bindR fun o => visitNodes_mono ctx g o
    · exact visitBranches_mono ctx neg r out
termination_by sizeOf b
end
end

theorem run_mono_succ (env : Env) (n : Nat) : RecLe (run env n) (run env (n + 1)) := by
  induction n with
  | zero => intro ctx text out s hs; simp [run] at hs
  | succ n ih =>
    intro ctx text out
    rw [run, run]
    split
    · exact MLe.refl _
    · exact MLe.refl _
    · split
      · exact visitNodes_mono env ih ctx _ out
      · exact MLe.refl _

theorem run_mono (env : Env) {n m : Nat} (hnm : n ≤ m) : RecLe (run env n) (run env m) := by
  induction m with
  | zero => intro ctx t o; rw [show n = 0 by omega]; exact MLe.refl _
  | succ m ih =>
    by_cases h : n = m + 1
    · subst h; intro ctx t o; exact MLe.refl _
    · intro ctx t o s hs
      have h1 := ih (by omega) ctx t o s hs
      rw [← h1]
      exact run_mono_succ env m ctx t o s (by rw [h1]; exact hs)

end Verif
