import Verif.PyRef
import Verif.Spec.PyRefs
/-!
# Lemmas about the reference counts
-/
namespace Verif.PyRef
open Verif Spec

/-- One reference to `r`. -/
def one (r t : Ref) : Int := if r = t then 1 else 0

/-- The number of the new object that `t` is or belongs to. -/
def Ref.idx : Ref → Option Nat
  | .obj n => some n
  | .attr r _ => r.idx
  | _ => Option.none

/-- `t` is an object made before object `n`. -/
def old (n : Nat) (t : Ref) : Prop := ∃ m, t.idx = some m ∧ m < n

theorem old_mono {n m : Nat} {t : Ref} (h : old n t) (hm : n ≤ m) : old m t := by
  obtain ⟨k, h1, h2⟩ := h
  exact ⟨k, h1, h2.trans_le hm⟩

/-- First `v`, then `w`. -/
def seqv (v w : Option PyErr) : Option PyErr :=
  match v with
  | none => w
  | some e => some e

/-- A failure is clean if the part that fails fails cleanly, and nothing has leaked before. -/
def seqc (v : Option PyErr) (k : Nat) (c c' : Prop) : Prop :=
  match v with
  | none => k = 0 ∧ c'
  | some _ => c

/-- How a conversion ends. -/
def st {β : Type} : Except PyErr β → Option PyErr
  | .ok _ => none
  | .error e => some e

/-- A function that returns a new reference. -/
def RunsR (x : M Ref) (v : Option PyErr) (k : Nat) (c : Prop) : Prop := ∀ s : St,
  match v with
  | none => ∃ s' r L, x s = (s', .ok r) ∧ s.next ≤ s'.next ∧ List.length L = k ∧ (∀ t ∈ L, ¬ old s.next t) ∧
      (∀ t, net s' t = net s t + one r t + L.count t) ∧ ¬ old s.next r
  | some e => ∃ s', x s = (s', .error e) ∧ s.next ≤ s'.next ∧ (e ≠ .ub → ∀ t, (c ∨ old s.next t) → net s' t = net s t)

/-- A step in the conversion of object `m`; the object is released if the step fails. -/
def Step (m : Nat) (x : M Unit) (v : Option PyErr) (k : Nat) (c : Prop) : Prop := ∀ s : St, m < s.next →
  match v with
  | none => ∃ s' L, x s = (s', .ok ()) ∧ s.next ≤ s'.next ∧ List.length L = k ∧ (∀ t ∈ L, ¬ old m t) ∧ ∀ t, net s' t = net s t + L.count t
  | some e => ∃ s', x s = (s', .error e) ∧ s.next ≤ s'.next ∧
      (e ≠ .ub → (c → ∀ t, net s' t = net s t - one (.obj m) t) ∧ ∀ t, old m t → net s' t = net s t)

/-- A loop that fills the list `l`; the list is released if the loop fails. -/
def Loop (l : Ref) (x : M Unit) (v : Option PyErr) (k : Nat) (c : Prop) : Prop := ∀ s : St,
  match v with
  | none => ∃ s' L, x s = (s', .ok ()) ∧ s.next ≤ s'.next ∧ List.length L = k ∧ (∀ t ∈ L, ¬ old s.next t) ∧ ∀ t, net s' t = net s t + L.count t
  | some e => ∃ s', x s = (s', .error e) ∧ s.next ≤ s'.next ∧ (e ≠ .ub → ∀ t, (c ∨ old s.next t) → net s' t = net s t - one l t)

/-! ## The monad -/

theorem bind_def {α β : Type} (x : M α) (f : α → M β) (s : St) : (x >>= f) s = M.bind x f s := rfl

theorem bind_okM {α β : Type} {x : M α} {f : α → M β} {s s' : St} {a : α} (h : x s = (s', .ok a)) : (x >>= f) s = f a s' := by
  simp only [bind_def, M.bind, h]

theorem bind_errM {α β : Type} {x : M α} {f : α → M β} {s s' : St} {e : PyErr} (h : x s = (s', .error e)) : (x >>= f) s = (s', .error e) := by
  simp only [bind_def, M.bind, h]

theorem pureM {α : Type} (a : α) (s : St) : (pure a : M α) s = (s, .ok a) := rfl

theorem net_change (r : Ref) (d : Int) (s : St) (t : Ref) : net { s with log := (r, d) :: s.log } t = net s t + d * one r t := by
  simp only [net, netL, one]
  split <;> omega

theorem onFail_ok {α : Type} {x : M α} {c : M Unit} {s s' : St} {a : α} (h : x s = (s', .ok a)) : onFail x c s = (s', .ok a) := by
  simp only [onFail, h]

theorem onFail_ub {α : Type} {x : M α} {c : M Unit} {s s' : St} (h : x s = (s', .error .ub)) : onFail x c s = (s', .error .ub) := by
  simp only [onFail, h]

theorem onFail_err {α : Type} {x : M α} {c : M Unit} {s s' s'' : St} {e : PyErr} (h : x s = (s', .error e)) (he : e ≠ .ub)
    (hc : c s' = (s'', .ok ())) : onFail x c s = (s'', .error e) := by
  cases e <;> simp_all [onFail]

/-- The state after giving up a reference. -/
def St.dec (s : St) (r : Ref) : St := { s with log := (r, -1) :: s.log }

theorem decref_eq (r : Ref) (s : St) : decref r s = (s.dec r, .ok ()) := rfl

theorem net_dec (s : St) (r t : Ref) : net (s.dec r) t = net s t - one r t := by
  have := net_change r (-1) s t
  simp only [St.dec, this]; omega

theorem next_dec (s : St) (r : Ref) : (s.dec r).next = s.next := rfl

/-! ## Weakening -/

theorem RunsR.weaken {x : M Ref} {v : Option PyErr} {k : Nat} {c c' : Prop} (h : RunsR x v k c) (hc : c' → c) : RunsR x v k c' := by
  intro s
  have := h s
  cases v with
  | none => exact this
  | some e =>
    obtain ⟨s', h1, h2, h3⟩ := this
    exact ⟨s', h1, h2, fun he t ht => h3 he t (ht.imp_left hc)⟩

theorem RunsR.cast {x : M Ref} {v v' : Option PyErr} {k k' : Nat} {c c' : Prop} (h : RunsR x v k c) (hv : v = v') (hk : k = k')
    (hc : v' ≠ none → c' → c) : RunsR x v' k' c' := by
  subst hv hk
  cases v with
  | none => exact h
  | some e => exact h.weaken (hc (by simp))

/-! ## Elementary functions -/

theorem not_old_self (n : Nat) : ¬ old n (.obj n) := by
  rintro ⟨_, h1, h2⟩
  simp only [Ref.idx, Option.some.injEq] at h1
  omega

theorem new_runs : RunsR new none 0 True := by
  intro s
  refine ⟨_, _, [], rfl, Nat.le_succ _, rfl, by simp, fun t => ?_, not_old_self s.next⟩
  simp only [net, netL, one, List.count_nil]
  omega

theorem incref_runs (r : Ref) (hr : r.idx = none) : RunsR (do incref r; return r) none 0 True := by
  intro s
  refine ⟨{ s with log := (r, 1) :: s.log }, r, [], rfl, Nat.le_refl _, rfl, by simp, fun t => ?_, fun ⟨_, h, _⟩ => by simp [hr] at h⟩
  simp [net_change]

theorem noneR_runs : RunsR noneR none 0 True := incref_runs _ rfl

theorem globR_runs (c n : Str) : RunsR (globR c n) none 0 True := incref_runs _ rfl

theorem boolR_runs (b : Bool) : RunsR (boolR b) none 0 True := globR_runs _ _

theorem fail_runs (e : PyErr) : RunsR (fail e) (some e) 0 True := fun s => ⟨s, rfl, Nat.le_refl _, fun _ _ _ => rfl⟩

/-! ## Composition -/

theorem append_loop {l : Ref} {x : M Ref} {v : Option PyErr} {k : Nat} {c : Prop} (h : RunsR x v k c) : Loop l (appendR l x) v k c := by
  intro s
  have := h s
  cases v with
  | none =>
    obtain ⟨s', r, L, h1, h2, h3, h4, h5, -⟩ := this
    refine ⟨s'.dec r, L, ?_, h2, h3, h4, fun t => ?_⟩
    · rw [appendR, bind_okM (onFail_ok h1), decref_eq]
    · rw [net_dec, h5]; omega
  | some e =>
    obtain ⟨s', h1, h2, h3⟩ := this
    by_cases he : e = .ub
    · subst he
      exact ⟨s', by rw [appendR, bind_errM (onFail_ub h1)], h2, fun h => absurd rfl h⟩
    · refine ⟨s'.dec l, by rw [appendR, bind_errM (onFail_err h1 he (decref_eq _ _))], h2, fun _ t ht => ?_⟩
      rw [net_dec, h3 he t ht]

theorem nil_loop (l : Ref) : Loop l (pure ()) none 0 True := fun s => ⟨s, [], rfl, Nat.le_refl _, rfl, by simp, by simp⟩

theorem seq_loop {l : Ref} {x y : M Unit} {v w : Option PyErr} {k k' : Nat} {c c' : Prop} (h : Loop l x v k c) (h' : Loop l y w k' c') :
    Loop l (x >>= fun _ => y) (seqv v w) (k + k') (seqc v k c c') := by
  intro s
  have h := h s
  cases v with
  | some e =>
    obtain ⟨s', h1, h2, h3⟩ := h
    exact ⟨s', bind_errM h1, h2, h3⟩
  | none =>
    obtain ⟨s', L, h1, h2, h3, h4, h5⟩ := h
    have h' := h' s'
    cases w with
    | none =>
      obtain ⟨s2, L', g1, g2, g3, g4, g5⟩ := h'
      refine ⟨s2, L ++ L', by rw [bind_okM h1, g1], h2.trans g2, by simp [h3, g3], ?_, fun t => ?_⟩
      · intro t ht
        rcases List.mem_append.1 ht with ht | ht
        · exact h4 t ht
        · exact fun ho => g4 t ht (old_mono ho h2)
      · rw [g5, h5, List.count_append]; omega
    | some e =>
      obtain ⟨s2, g1, g2, g3⟩ := h'
      refine ⟨s2, by rw [bind_okM h1, g1], h2.trans g2, fun he t ht => ?_⟩
      rw [g3 he t (ht.imp (·.2) (old_mono · h2)), h5]
      have : L.count t = 0 := by
        rcases ht with ⟨rfl, -⟩ | ht
        · simp [List.length_eq_zero_iff.1 h3]
        · exact List.count_eq_zero.2 fun hm => h4 t hm ht
      rw [this]; omega

theorem prop_step {m : Nat} {x : M Ref} {v : Option PyErr} {k : Nat} {c : Prop} (h : RunsR x v k c) : Step m (propR (.obj m) x) v k c := by
  intro s hm
  have := append_loop (l := .obj m) h s
  cases v with
  | none =>
    obtain ⟨s', L, h1, h2, h3, h4, h5⟩ := this
    exact ⟨s', L, h1, h2, h3, fun t ht ho => h4 t ht (old_mono ho hm.le), h5⟩
  | some e =>
    obtain ⟨s', h1, h2, h3⟩ := this
    refine ⟨s', h1, h2, fun he => ⟨fun hc t => h3 he t (.inl hc), fun t ht => ?_⟩⟩
    rw [h3 he t (.inr (old_mono ht hm.le))]
    have : one (.obj m) t = 0 := by
      simp only [one]
      split
      · rename_i h; subst h; obtain ⟨_, h1, h2⟩ := ht; simp [Ref.idx] at h1; omega
      · rfl
    omega

theorem idx_attr_not_old (m : Nat) (p : Str) : ¬ old m (.attr (.obj m) p) := by
  rintro ⟨_, h1, h2⟩
  simp only [Ref.idx, Option.some.injEq] at h1
  omega

theorem arr_step {m : Nat} {p : Str} {f : Ref → M Unit} {v : Option PyErr} {k : Nat} {c : Prop} (h : ∀ l, Loop l (f l) v k c) :
    Step m (arrR (.obj m) p f) v (1 + k) False := by
  intro s hm
  have := h (.attr (.obj m) p) { s with log := (.attr (.obj m) p, 1) :: s.log }
  have hg : getAttr (.obj m) p s = ({ s with log := (.attr (.obj m) p, 1) :: s.log }, .ok (.attr (.obj m) p)) := rfl
  cases v with
  | none =>
    obtain ⟨s', L, h1, h2, h3, h4, h5⟩ := this
    refine ⟨s', .attr (.obj m) p :: L, ?_, h2, by simp [h3]; omega, ?_, fun t => ?_⟩
    · rw [arrR, bind_okM hg, onFail_ok h1]
    · intro t ht
      rcases List.mem_cons.1 ht with rfl | ht
      · exact idx_attr_not_old m p
      · exact fun ho => h4 t ht (old_mono ho hm.le)
    · rw [h5, net_change, List.count_cons, one]
      by_cases e : Ref.attr (.obj m) p = t <;> simp [e] <;> omega
  | some e =>
    obtain ⟨s', h1, h2, h3⟩ := this
    by_cases he : e = .ub
    · subst he
      exact ⟨s', by rw [arrR, bind_okM hg, onFail_ub h1], h2, fun h => absurd rfl h⟩
    · refine ⟨s'.dec (.attr (.obj m) p), by rw [arrR, bind_okM hg, onFail_err h1 he (decref_eq _ _)], h2, fun _ => ⟨False.elim, fun t ht => ?_⟩⟩
      rw [net_dec, h3 he t (.inr (old_mono ht hm.le)), net_change]
      have : one (.attr (.obj m) p) t = 0 := by
        simp only [one]
        split
        · rename_i h; subst h; exact absurd ht (idx_attr_not_old m p)
        · rfl
      omega

theorem nil_step (m : Nat) : Step m (pure ()) none 0 True := fun s _ => ⟨s, [], rfl, Nat.le_refl _, rfl, by simp, by simp⟩

theorem seq_step {m : Nat} {x y : M Unit} {v w : Option PyErr} {k k' : Nat} {c c' : Prop} (h : Step m x v k c) (h' : Step m y w k' c') :
    Step m (x >>= fun _ => y) (seqv v w) (k + k') (seqc v k c c') := by
  intro s hm
  have h := h s hm
  cases v with
  | some e =>
    obtain ⟨s', h1, h2, h3⟩ := h
    exact ⟨s', bind_errM h1, h2, h3⟩
  | none =>
    obtain ⟨s', L, h1, h2, h3, h4, h5⟩ := h
    have h' := h' s' (hm.trans_le h2)
    cases w with
    | none =>
      obtain ⟨s2, L', g1, g2, g3, g4, g5⟩ := h'
      refine ⟨s2, L ++ L', by rw [bind_okM h1, g1], h2.trans g2, by simp [h3, g3], ?_, fun t => ?_⟩
      · intro t ht
        rcases List.mem_append.1 ht with ht | ht
        · exact h4 t ht
        · exact g4 t ht
      · rw [g5, h5, List.count_append]; omega
    | some e =>
      obtain ⟨s2, g1, g2, g3⟩ := h'
      refine ⟨s2, by rw [bind_okM h1, g1], h2.trans g2, fun he => ⟨fun hc t => ?_, fun t ht => ?_⟩⟩
      · rw [(g3 he).1 hc.2, h5, List.length_eq_zero_iff.1 (h3.trans hc.1)]; simp
      · rw [(g3 he).2 t ht, h5, List.count_eq_zero.2 fun hm => h4 t hm ht]; simp

theorem Step.cast {m : Nat} {x : M Unit} {v v' : Option PyErr} {k k' : Nat} {c c' : Prop} (h : Step m x v k c) (hv : v = v') (hk : k = k')
    (hc : v' ≠ none → c' → c) : Step m x v' k' c' := by
  subst hv hk
  intro s hm
  have := h s hm
  cases v with
  | none => exact this
  | some e =>
    obtain ⟨s', h1, h2, h3⟩ := this
    exact ⟨s', h1, h2, fun he => ⟨fun h => (h3 he).1 (hc (by simp) h), (h3 he).2⟩⟩

theorem Loop.cast {l : Ref} {x : M Unit} {v v' : Option PyErr} {k k' : Nat} {c c' : Prop} (h : Loop l x v k c) (hv : v = v') (hk : k = k')
    (hc : v' ≠ none → c' → c) : Loop l x v' k' c' := by
  subst hv hk
  intro s
  have := h s
  cases v with
  | none => exact this
  | some e =>
    obtain ⟨s', h1, h2, h3⟩ := this
    exact ⟨s', h1, h2, fun he t ht => h3 he t (ht.imp_left (hc (by simp)))⟩

theorem net_new (s : St) (t : Ref) : net { next := s.next + 1, log := (.obj s.next, 1) :: s.log } t = net s t + one (.obj s.next) t := by
  simp only [net, netL, one]; omega

theorem inst_runs {f : Ref → M Unit} {v : Option PyErr} {k : Nat} {c : Prop} (h : ∀ m, Step m (f (.obj m)) v k c) : RunsR (instR f) v k c := by
  intro s
  have := h s.next { next := s.next + 1, log := (.obj s.next, 1) :: s.log } (Nat.lt_succ_self _)
  have hn : new s = ({ next := s.next + 1, log := (.obj s.next, 1) :: s.log }, .ok (.obj s.next)) := rfl
  cases v with
  | none =>
    obtain ⟨s', L, h1, h2, h3, h4, h5⟩ := this
    refine ⟨s', .obj s.next, L, by rw [instR, bind_okM hn, bind_okM h1]; rfl, (Nat.le_succ _).trans h2, h3, h4, fun t => ?_, not_old_self s.next⟩
    rw [h5, net_new]
  | some e =>
    obtain ⟨s', h1, h2, h3⟩ := this
    refine ⟨s', by rw [instR, bind_okM hn, bind_errM h1], (Nat.le_succ _).trans h2, fun he t ht => ?_⟩
    by_cases hc : c
    · rw [(h3 he).1 hc t, net_new]; omega
    · have ho := ht.resolve_left hc
      rw [(h3 he).2 t ho, net_new]
      have : one (.obj s.next) t = 0 := by
        simp only [one]
        split
        · rename_i h; subst h; obtain ⟨_, h1, h2⟩ := ho; simp [Ref.idx] at h1; omega
        · rfl
      omega

theorem setItem_loop {l : Ref} {x : M Ref} {v : Option PyErr} {k : Nat} {c : Prop} (h : RunsR x v k c) : Loop l (setItemR l x) v k c :=
  append_loop h

theorem setItem_step {m : Nat} {x : M Ref} {v : Option PyErr} {k : Nat} {c : Prop} (h : RunsR x v k c) : Step m (setItemR (.obj m) x) v k c :=
  prop_step h

theorem loop_step {m : Nat} {x : M Unit} {v : Option PyErr} {k : Nat} {c : Prop} (h : Loop (.obj m) x v k c) : Step m x v k c := by
  intro s hm
  have := h s
  cases v with
  | none =>
    obtain ⟨s', L, h1, h2, h3, h4, h5⟩ := this
    exact ⟨s', L, h1, h2, h3, fun t ht ho => h4 t ht (old_mono ho hm.le), h5⟩
  | some e =>
    obtain ⟨s', h1, h2, h3⟩ := this
    refine ⟨s', h1, h2, fun he => ⟨fun hc t => h3 he t (.inl hc), fun t ht => ?_⟩⟩
    rw [h3 he t (.inr (old_mono ht hm.le))]
    have : one (.obj m) t = 0 := by
      simp only [one]
      split
      · rename_i h; subst h; obtain ⟨_, h1, h2⟩ := ht; simp [Ref.idx] at h1; omega
      · rfl
    omega

/-! ## Functions that own references -/

/-- A function that gives up the references `G` and returns a new reference; if `N`, to a new object. -/
def Hold (G : Ref → Int) (N : Prop) (x : M Ref) (v : Option PyErr) (k : Nat) (c : Prop) : Prop := ∀ s : St,
  match v with
  | none => ∃ s' r L, x s = (s', .ok r) ∧ s.next ≤ s'.next ∧ (N → ∃ m, r = .obj m ∧ s.next ≤ m ∧ m < s'.next) ∧ List.length L = k ∧
      (∀ t ∈ L, ¬ old s.next t) ∧ (∀ t, net s' t = net s t + one r t - G t + L.count t) ∧ ¬ old s.next r
  | some e => ∃ s', x s = (s', .error e) ∧ s.next ≤ s'.next ∧ (e ≠ .ub → ∀ t, (c ∨ old s.next t) → net s' t = net s t - G t)

/-- Gives up the references `G` and does nothing else. -/
def Rel {α : Type} (G : Ref → Int) (x : M α) (a : α) : Prop := ∀ s, ∃ s', x s = (s', .ok a) ∧ s'.next = s.next ∧ ∀ t, net s' t = net s t - G t

theorem rel_pure {α : Type} (a : α) : Rel (fun _ => 0) (pure a) a := fun s => ⟨s, rfl, rfl, fun t => by beta_reduce; omega⟩

theorem rel_dec {α : Type} {a : α} {G : Ref → Int} {y : M α} (r : Ref) (h : Rel G y a) : Rel (fun t => G t + one r t) (decref r >>= fun _ => y) a := by
  intro s
  obtain ⟨s', h1, h2, h3⟩ := h (s.dec r)
  refine ⟨s', by rw [bind_okM (decref_eq r s), h1], h2, fun t => ?_⟩
  rw [h3, net_dec]; beta_reduce; omega

theorem rel_dec1 (r : Ref) : Rel (fun t => one r t) (decref r) () := fun s => ⟨_, decref_eq r s, rfl, net_dec s r⟩

theorem rel_glob {α : Type} {a : α} {G : Ref → Int} {y : M α} (c n : Str) (h : Rel G y a) :
    Rel G (globR c n >>= fun r => decref r >>= fun _ => y) a := by
  intro s
  obtain ⟨s', h1, h2, h3⟩ := h (({ s with log := (.glob c n, 1) :: s.log } : St).dec (.glob c n))
  refine ⟨s', h1, h2, fun t => ?_⟩
  rw [h3, net_dec, net_change]; beta_reduce; omega

theorem hold_new {G : Ref → Int} {y : Ref → M Ref} (h : ∀ r, Rel G (y r) r) : Hold G True (new >>= y) none 0 True := by
  intro s
  obtain ⟨s', h1, h2, h3⟩ := h (.obj s.next) { next := s.next + 1, log := (.obj s.next, 1) :: s.log }
  have hn : new s = ({ next := s.next + 1, log := (.obj s.next, 1) :: s.log }, .ok (.obj s.next)) := rfl
  simp only at h2
  refine ⟨s', .obj s.next, [], by rw [bind_okM hn, h1], by beta_reduce; omega, fun _ => ⟨_, rfl, Nat.le_refl _, by beta_reduce; omega⟩, rfl, by simp, fun t => ?_, not_old_self s.next⟩
  rw [h3, net_new]; simp

theorem hold_bind_ok {G : Ref → Int} {N : Prop} {x : M Ref} {f : Ref → M Ref} {w : Option PyErr} {k k' : Nat} {c c' : Prop} (h : RunsR x none k c)
    (hf : ∀ r, Hold (fun t => G t + one r t) N (f r) w k' c') : Hold G N (x >>= f) w (k + k') (k = 0 ∧ c') := by
  intro s
  obtain ⟨s', r, L, h1, h2, h3, h4, h5, -⟩ := h s
  have g := hf r s'
  cases w with
  | none =>
    obtain ⟨s2, r', L', g1, g2, gn, g3, g4, g5, g6⟩ := g
    refine ⟨s2, r', L ++ L', by rw [bind_okM h1, g1], h2.trans g2, fun hN => ?_, by simp [h3, g3], ?_, fun t => ?_, fun ho => g6 (old_mono ho h2)⟩
    · obtain ⟨m, hm, hm', hm''⟩ := gn hN
      exact ⟨m, hm, h2.trans hm', hm''⟩
    · intro t ht
      rcases List.mem_append.1 ht with ht | ht
      · exact h4 t ht
      · exact fun ho => g4 t ht (old_mono ho h2)
    · rw [g5, h5, List.count_append]; beta_reduce; omega
  | some e =>
    obtain ⟨s2, g1, g2, g3⟩ := g
    refine ⟨s2, by rw [bind_okM h1, g1], h2.trans g2, fun he t ht => ?_⟩
    rw [g3 he t (ht.imp (·.2) (old_mono · h2)), h5]
    have : L.count t = 0 := by
      rcases ht with ⟨rfl, -⟩ | ht
      · simp [List.length_eq_zero_iff.1 h3]
      · exact List.count_eq_zero.2 fun hm => h4 t hm ht
    rw [this]; beta_reduce; omega

theorem hold_bind0 {N : Prop} {x : M Ref} {f : Ref → M Ref} {v w : Option PyErr} {k k' : Nat} {c c' : Prop} (h : RunsR x v k c)
    (hf : ∀ r, Hold (fun t => 0 + one r t) N (f r) w k' c') : Hold (fun _ => 0) N (x >>= f) (seqv v w) (k + k') (seqc v k c c') := by
  cases v with
  | none => exact hold_bind_ok (G := fun _ => 0) h hf
  | some e =>
    intro s
    obtain ⟨s', h1, h2, h3⟩ := h s
    exact ⟨s', bind_errM h1, h2, fun he t ht => by rw [h3 he t ht]; beta_reduce; omega⟩

/-- What becomes of an error when a null pointer is released. -/
def ubv (v : Option PyErr) : Option PyErr := v.map fun _ => .ub

theorem nullFail_runs {x : M Ref} {v : Option PyErr} {k : Nat} {c : Prop} (h : RunsR x v k c) : RunsR (nullFail x) (ubv v) k True := by
  intro s
  have := h s
  cases v with
  | none =>
    obtain ⟨s', r, L, h1, h2⟩ := this
    exact ⟨s', r, L, onFail_ok h1, h2⟩
  | some e =>
    obtain ⟨s', h1, h2, h3⟩ := this
    refine ⟨s', ?_, h2, fun h => absurd rfl h⟩
    cases e <;> simp [nullFail, onFail, h1, fail]

theorem hold_bind_ub {G : Ref → Int} {N : Prop} {x : M Ref} {f : Ref → M Ref} {v w : Option PyErr} {k k' : Nat} {c c' : Prop} (h : RunsR x v k c)
    (hf : ∀ r, Hold (fun t => G t + one r t) N (f r) w k' c') : Hold G N (nullFail x >>= f) (seqv (ubv v) w) (k + k') (k = 0 ∧ c') := by
  cases v with
  | none => exact hold_bind_ok (nullFail_runs h) hf
  | some e =>
    intro s
    obtain ⟨s', h1, h2, h3⟩ := nullFail_runs h s
    exact ⟨s', bind_errM h1, h2, fun h => absurd rfl h⟩

theorem hold_loop {G : Ref → Int} {N : Prop} {l : Ref} {x rel : M Unit} {y : M Ref} {v w : Option PyErr} {k k' : Nat} {c c' : Prop} (h : Loop l x v k c)
    (hr : Rel G rel ()) (hy : Hold (fun t => G t + one l t) N y w k' c') :
    Hold (fun t => G t + one l t) N (onFail x rel >>= fun _ => y) (seqv v w) (k + k') (seqc v k c c') := by
  intro s
  have h := h s
  cases v with
  | some e =>
    obtain ⟨s', h1, h2, h3⟩ := h
    by_cases he : e = .ub
    · subst he
      exact ⟨s', bind_errM (onFail_ub h1), h2, fun h => absurd rfl h⟩
    · obtain ⟨s2, g1, g2, g3⟩ := hr s'
      refine ⟨s2, bind_errM (onFail_err h1 he g1), by beta_reduce; omega, fun _ t ht => ?_⟩
      rw [g3, h3 he t ht]; beta_reduce; omega
  | none =>
    obtain ⟨s', L, h1, h2, h3, h4, h5⟩ := h
    have g := hy s'
    cases w with
    | none =>
      obtain ⟨s2, r', L', g1, g2, gn, g3, g4, g5, g6⟩ := g
      refine ⟨s2, r', L ++ L', by rw [bind_okM (onFail_ok h1), g1], h2.trans g2, fun hN => ?_, by simp [h3, g3], ?_, fun t => ?_, fun ho => g6 (old_mono ho h2)⟩
      · obtain ⟨m, hm, hm', hm''⟩ := gn hN
        exact ⟨m, hm, h2.trans hm', hm''⟩
      · intro t ht
        rcases List.mem_append.1 ht with ht | ht
        · exact h4 t ht
        · exact fun ho => g4 t ht (old_mono ho h2)
      · rw [g5, h5, List.count_append]; beta_reduce; omega
    | some e =>
      obtain ⟨s2, g1, g2, g3⟩ := g
      refine ⟨s2, by rw [bind_okM (onFail_ok h1), g1], h2.trans g2, fun he t ht => ?_⟩
      rw [g3 he t (ht.imp (·.2) (old_mono · h2)), h5]
      have : L.count t = 0 := by
        rcases ht with ⟨rfl, -⟩ | ht
        · simp [List.length_eq_zero_iff.1 h3]
        · exact List.count_eq_zero.2 fun hm => h4 t hm ht
      rw [this]; beta_reduce; omega

theorem Hold.congr {G G' : Ref → Int} {N : Prop} {x : M Ref} {v v' : Option PyErr} {k k' : Nat} {c c' : Prop} (h : Hold G N x v k c)
    (hG : ∀ t, G t = G' t) (hv : v = v') (hk : k = k') (hc : v' ≠ none → c' → c) : Hold G' N x v' k' c' := by
  obtain rfl : G = G' := funext hG
  subst hv hk
  intro s
  have := h s
  cases v with
  | none => exact this
  | some e =>
    obtain ⟨s', h1, h2, h3⟩ := this
    exact ⟨s', h1, h2, fun he t ht => h3 he t (ht.imp_left (hc (by simp)))⟩

theorem Rel.congr {α : Type} {a : α} {G G' : Ref → Int} {x : M α} (h : Rel G x a) (hG : ∀ t, G t = G' t) : Rel G' x a := by
  obtain rfl : G = G' := funext hG
  exact h

theorem hold_runs {N : Prop} {x : M Ref} {v : Option PyErr} {k : Nat} {c : Prop} (h : Hold (fun _ => 0) N x v k c) : RunsR x v k c := by
  intro s
  have := h s
  cases v with
  | none =>
    obtain ⟨s', r, L, h1, h2, -, h3, h4, h5, h6⟩ := this
    exact ⟨s', r, L, h1, h2, h3, h4, fun t => by rw [h5]; beta_reduce; omega, h6⟩
  | some e =>
    obtain ⟨s', h1, h2, h3⟩ := this
    exact ⟨s', h1, h2, fun he t ht => by rw [h3 he t ht]; beta_reduce; omega⟩

/-- The attributes of an object that is made by another function. -/
theorem hold_inst {x : M Ref} {f : Ref → M Unit} {v w : Option PyErr} {k k' : Nat} {c c' : Prop} (h : Hold (fun _ => 0) True x v k c)
    (hf : ∀ m, Step m (f (.obj m)) w k' c') : RunsR (x >>= fun i => f i >>= fun _ => pure i) (seqv v w) (k + k') (seqc v k c c') := by
  intro s
  have h := h s
  cases v with
  | some e =>
    obtain ⟨s', h1, h2, h3⟩ := h
    exact ⟨s', bind_errM h1, h2, fun he t ht => by rw [h3 he t ht]; beta_reduce; omega⟩
  | none =>
    obtain ⟨s', r, L, h1, h2, hn, h3, h4, h5, h6⟩ := h
    obtain ⟨m, rfl, hm, hm'⟩ := hn trivial
    have g := hf m s' hm'
    cases w with
    | none =>
      obtain ⟨s2, L', g1, g2, g3, g4, g5⟩ := g
      refine ⟨s2, .obj m, L ++ L', by rw [bind_okM h1, bind_okM g1]; rfl, h2.trans g2, by simp [h3, g3], ?_, fun t => ?_, h6⟩
      · intro t ht
        rcases List.mem_append.1 ht with ht | ht
        · exact h4 t ht
        · exact fun ho => g4 t ht (old_mono ho hm)
      · rw [g5, h5, List.count_append]; beta_reduce; omega
    | some e =>
      obtain ⟨s2, g1, g2, g3⟩ := g
      refine ⟨s2, by rw [bind_okM h1, bind_errM g1], h2.trans g2, fun he t ht => ?_⟩
      rcases ht with ⟨hk, hc⟩ | ht
      · rw [(g3 he).1 hc, h5, List.length_eq_zero_iff.1 (h3.trans hk)]; simp
      · rw [(g3 he).2 t (old_mono ht hm), h5, List.count_eq_zero.2 fun hm => h4 t hm ht]
        have : one (.obj m) t = 0 := by
          simp only [one]
          split
          · rename_i h; subst h; obtain ⟨_, h1, h2⟩ := ht; simp [Ref.idx] at h1; beta_reduce; omega
          · rfl
        (beta_reduce; omega)

/-- The references in front leak. -/
theorem leak_runs {x : M Ref} {y : M Ref} {v w : Option PyErr} {k k' : Nat} {c c' : Prop} (h : RunsR x v k c) (hy : RunsR y w k' c') :
    RunsR (x >>= fun _ => y) (seqv v w) ((k + 1) + k') (v ≠ none ∧ c) := by
  intro s
  have h := h s
  cases v with
  | some e =>
    obtain ⟨s', h1, h2, h3⟩ := h
    exact ⟨s', bind_errM h1, h2, fun he t ht => h3 he t (ht.imp_left (·.2))⟩
  | none =>
    obtain ⟨s', r, L, h1, h2, h3, h4, h5, hr⟩ := h
    have g := hy s'
    cases w with
    | none =>
      obtain ⟨s2, r', L', g1, g2, g3, g4, g5, g6⟩ := g
      refine ⟨s2, r', (r :: L) ++ L', by rw [bind_okM h1, g1], h2.trans g2, by simp [h3, g3]; omega, ?_, fun t => ?_, fun ho => g6 (old_mono ho h2)⟩
      · intro t ht
        rcases List.mem_append.1 ht with ht | ht
        · rcases List.mem_cons.1 ht with rfl | ht
          · exact hr
          · exact h4 t ht
        · exact fun ho => g4 t ht (old_mono ho h2)
      · rw [g5, h5, List.count_append, List.count_cons, one, one]
        by_cases e : r = t <;> simp [e] <;> (beta_reduce; omega)
    | some e =>
      obtain ⟨s2, g1, g2, g3⟩ := g
      refine ⟨s2, by rw [bind_okM h1, g1], h2.trans g2, fun he t ht => ?_⟩
      have ht : old s.next t := by
        rcases ht with ⟨h, -⟩ | ht
        · exact absurd rfl h
        · exact ht
      rw [g3 he t (.inr (old_mono ht h2)), h5, List.count_eq_zero.2 fun hm => h4 t hm ht]
      have : one r t = 0 := by
        simp only [one]
        split
        · rename_i h; subst h; exact absurd ht hr
        · rfl
      (beta_reduce; omega)

end Verif.PyRef
