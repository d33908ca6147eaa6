import Verif.Sv.Grammar
/-!
# Parses of the grammar rules: combinators
-/
namespace Verif.Sv
open P

variable {α β : Type}

theorem bind_apply (p : P α) (f : α → P β) (ts : List STok) : (p >>= f) ts = (p ts).flatMap fun x => f x.1 x.2 := rfl
theorem pure_apply (a : α) (ts : List STok) : (pure a : P α) ts = [(a, ts)] := rfl
theorem or_apply (p q : P α) (ts : List STok) : P.or p q ts = p ts ++ q ts := rfl
theorem fail_apply (ts : List STok) : (P.fail : P α) ts = [] := rfl

theorem mem_pure {a : α} {ts : List STok} {x : α × List STok} : x ∈ (pure a : P α) ts ↔ x = (a, ts) := by
  simp [pure_apply]

theorem mem_bind {p : P α} {f : α → P β} {ts : List STok} {x : β × List STok} :
    x ∈ (p >>= f) ts ↔ ∃ a r, (a, r) ∈ p ts ∧ x ∈ f a r := by
  simp [bind_apply, List.mem_flatMap]

theorem mem_or {p q : P α} {ts : List STok} {x : α × List STok} : x ∈ P.or p q ts ↔ x ∈ p ts ∨ x ∈ q ts := by
  simp [or_apply]

theorem alts_apply (l : List (P α)) (ts : List STok) : alts l ts = l.flatMap fun p => p ts := by
  induction l with
  | nil => rfl
  | cons p l ih =>
    cases l with
    | nil => simp [alts]
    | cons q l => simp only [alts, or_apply] at ih ⊢; rw [ih]; rfl

theorem mem_alts {l : List (P α)} {ts : List STok} {x : α × List STok} : x ∈ alts l ts ↔ ∃ p ∈ l, x ∈ p ts := by
  simp [alts_apply, List.mem_flatMap]

theorem tok_cons (t : ST) (x : STok) (r : List STok) : tok t (x :: r) = if x.ty = t then [(x.text, r)] else [] := rfl
theorem tok_nil (t : ST) : tok t [] = [] := rfl

theorem tok_pos {t : ST} {x : STok} (h : x.ty = t) (r : List STok) : tok t (x :: r) = [(x.text, r)] := by
  rw [tok_cons, if_pos h]
theorem tok_neg {t : ST} {x : STok} (h : x.ty ≠ t) (r : List STok) : tok t (x :: r) = [] := by
  rw [tok_cons, if_neg h]

theorem mem_tok {t : ST} {ts : List STok} {x : Str × List STok} :
    x ∈ tok t ts ↔ ∃ y, ts = y :: x.2 ∧ y.ty = t ∧ y.text = x.1 := by
  cases ts with
  | nil => simp [tok_nil]
  | cons y r =>
    rw [tok_cons]
    split
    · rename_i h
      simp only [List.mem_singleton, List.cons.injEq]
      constructor
      · rintro rfl; exact ⟨y, ⟨rfl, rfl⟩, h, rfl⟩
      · rintro ⟨z, ⟨rfl, rfl⟩, -, h2⟩; rw [h2]
    · rename_i h
      simp only [List.not_mem_nil, List.cons.injEq, false_iff]
      rintro ⟨z, ⟨rfl, -⟩, h2, -⟩
      exact h h2

theorem mem_toks {l : List (ST × α)} {ts : List STok} {x : α × List STok} :
    x ∈ toks l ts ↔ ∃ y, ts = y :: x.2 ∧ (y.ty, x.1) ∈ l := by
  simp only [toks, mem_alts, List.mem_map]
  constructor
  · rintro ⟨p, ⟨q, hq, rfl⟩, hp⟩
    obtain ⟨s, r, h1, h2⟩ := mem_bind.1 hp
    rw [mem_pure] at h2
    obtain ⟨y, h3, h4, -⟩ := mem_tok.1 h1
    subst h2
    exact ⟨y, h3, by rw [h4]; exact hq⟩
  · rintro ⟨y, h1, h2⟩
    refine ⟨_, ⟨_, h2, rfl⟩, mem_bind.2 ⟨y.text, x.2, mem_tok.2 ⟨y, h1, rfl, rfl⟩, ?_⟩⟩
    rw [mem_pure]

theorem toks_nil (l : List (ST × α)) : toks l [] = [] := by
  apply List.eq_nil_iff_forall_not_mem.2
  intro x hx
  obtain ⟨y, h, -⟩ := mem_toks.1 hx
  cases h

/-- A token which is not in the list. -/
theorem toks_neg {l : List (ST × α)} {x : STok} (h : ∀ a, (x.ty, a) ∉ l) (r : List STok) : toks l (x :: r) = [] := by
  apply List.eq_nil_iff_forall_not_mem.2
  intro y hy
  obtain ⟨z, h1, h2⟩ := mem_toks.1 hy
  cases h1
  exact h _ h2

/-! ## A relation between the tokens and the rest -/

/-- All parses take the tokens to a rest in the relation. -/
def Snd (R : List STok → List STok → Prop) (p : P α) : Prop := ∀ ts x, x ∈ p ts → R ts x.2

/-- A relation for which sequences work. -/
structure Rel (R : List STok → List STok → Prop) : Prop where
  refl : ∀ ts, R ts ts
  trans : ∀ a b c, R a b → R b c → R a c

section
variable {R : List STok → List STok → Prop}

theorem Snd.mono {R' : List STok → List STok → Prop} {p : P α} (h : Snd R p) (hr : ∀ a b, R a b → R' a b) : Snd R' p :=
  fun ts x hx => hr _ _ (h ts x hx)

theorem Snd.ret (hR : Rel R) (a : α) : Snd R (pure a : P α) := by
  intro ts x hx; rw [mem_pure] at hx; subst hx; exact hR.refl _

theorem Snd.bind (hR : Rel R) {p : P α} {f : α → P β} (hp : Snd R p) (hf : ∀ a, Snd R (f a)) : Snd R (p >>= f) := by
  intro ts x hx
  obtain ⟨a, r, h1, h2⟩ := mem_bind.1 hx
  exact hR.trans _ _ _ (hp _ _ h1) (hf a _ _ h2)

theorem Snd.or {p q : P α} (hp : Snd R p) (hq : Snd R q) : Snd R (P.or p q) := by
  intro ts x hx
  rcases mem_or.1 hx with h | h
  · exact hp _ _ h
  · exact hq _ _ h

theorem Snd.fail : Snd R (P.fail : P α) := by intro ts x hx; cases hx

theorem Snd.alts {l : List (P α)} (h : ∀ p ∈ l, Snd R p) : Snd R (alts l) := by
  intro ts x hx
  obtain ⟨p, hp, hx⟩ := mem_alts.1 hx
  exact h p hp _ _ hx

theorem Snd.opt (hR : Rel R) {p : P α} (hp : Snd R p) : Snd R (opt p) :=
  Snd.or (Snd.bind hR hp fun _ => Snd.ret hR _) (Snd.ret hR _)

theorem Snd.manyN (hR : Rel R) {p : P α} (hp : Snd R p) : ∀ n, Snd R (manyN p n)
  | 0 => Snd.ret hR _
  | n + 1 => Snd.or (Snd.bind hR hp fun _ => Snd.bind hR (Snd.manyN hR hp n) fun _ => Snd.ret hR _) (Snd.ret hR _)

theorem Snd.many (hR : Rel R) {p : P α} (hp : Snd R p) : Snd R (many p) := fun ts x hx => Snd.manyN hR hp _ ts x hx

theorem Snd.loopN (hR : Rel R) {f : α → P α} (hf : ∀ a, Snd R (f a)) : ∀ n a, Snd R (loopN f n a)
  | 0, a => Snd.ret hR a
  | n + 1, a => Snd.or (Snd.bind hR (hf a) fun b => Snd.loopN hR hf n b) (Snd.ret hR a)

theorem Snd.loop (hR : Rel R) {f : α → P α} (hf : ∀ a, Snd R (f a)) (a : α) : Snd R (loop f a) :=
  fun ts x hx => Snd.loopN hR hf _ a ts x hx

theorem Snd.sepBy (hR : Rel R) {s : ST} {p : P α} (hs : Snd R (tok s)) (hp : Snd R p) : Snd R (sepBy s p) :=
  Snd.bind hR hp fun _ => Snd.bind hR (Snd.many hR (Snd.bind hR hs fun _ => hp)) fun _ => Snd.ret hR _

theorem Snd.prec {p : P α} (hp : Snd R p) (a b : Nat) : Snd R (prec a b p) := by
  unfold Sv.prec; split
  · exact hp
  · exact Snd.fail

end

/-! ## The first parse -/

/-- The first parse that counts is `t` with rest `r`: the ones in front of it have rests which are dead. -/
def First (D : List STok → Prop) (p : P α) (ts : List STok) (t : α) (r : List STok) : Prop :=
  ∃ pre post, p ts = pre ++ (t, r) :: post ∧ ∀ x ∈ pre, D x.2

/-- Nothing is dead. -/
def None' : List STok → Prop := fun _ => False

section
variable {D D' : List STok → Prop} {p q : P α} {ts r : List STok} {a : α}

theorem First.ret (a : α) (ts : List STok) : First D (pure a) ts a ts := ⟨[], [], rfl, by simp⟩

theorem First.mono (h : First D' p ts a r) (hD : ∀ s, D' s → D s) : First D p ts a r := by
  obtain ⟨pre, post, h1, h2⟩ := h
  exact ⟨pre, post, h1, fun x hx => hD _ (h2 x hx)⟩

theorem First.weak (h : First None' p ts a r) : First D p ts a r := h.mono fun _ h => h.elim

theorem First.of_eq (h : p ts = [(a, r)]) : First D p ts a r := ⟨[], [], h, by simp⟩

theorem First.bind {f : α → P β} {r1 : List STok} {b : β} (h1 : First D' p ts a r1) (h2 : First D (f a) r1 b r)
    (hD : ∀ c s, D' s → ∀ x ∈ f c s, D x.2) : First D (p >>= f) ts b r := by
  obtain ⟨pre, post, e1, h1⟩ := h1
  obtain ⟨pre', post', e2, h2⟩ := h2
  refine ⟨(pre.flatMap fun x => f x.1 x.2) ++ pre', post' ++ (post.flatMap fun x => f x.1 x.2), ?_, ?_⟩
  · rw [bind_apply, e1, List.flatMap_append, List.flatMap_cons, e2]
    simp
  · intro x hx
    rcases List.mem_append.1 hx with hx | hx
    · obtain ⟨y, hy, hx⟩ := List.mem_flatMap.1 hx
      exact hD _ _ (h1 y hy) x hx
    · exact h2 x hx

theorem First.bindH {f : α → P β} {r1 : List STok} {b : β} (h1 : First None' p ts a r1) (h2 : First D (f a) r1 b r) :
    First D (p >>= f) ts b r := h1.bind h2 fun _ _ h => h.elim

/-- A result changed. -/
theorem First.map {f : α → β} (h1 : First D p ts a r) : First D (p >>= fun x => pure (f x)) ts (f a) r :=
  h1.bind (First.ret _ _) fun c s hs x hx => by rw [mem_pure] at hx; subst hx; exact hs

theorem First.orL (h : First D p ts a r) : First D (P.or p q) ts a r := by
  obtain ⟨pre, post, h1, h2⟩ := h
  exact ⟨pre, post ++ q ts, by rw [or_apply, h1]; simp, h2⟩

theorem First.orR (h0 : ∀ x ∈ p ts, D x.2) (h : First D q ts a r) : First D (P.or p q) ts a r := by
  obtain ⟨pre, post, h1, h2⟩ := h
  refine ⟨p ts ++ pre, post, by rw [or_apply, h1]; simp, ?_⟩
  intro x hx
  rcases List.mem_append.1 hx with hx | hx
  · exact h0 x hx
  · exact h2 x hx

theorem First.orN (h0 : p ts = []) (h : First D q ts a r) : First D (P.or p q) ts a r :=
  h.orR (by rw [h0]; simp)

theorem First.tok {t : ST} {y : STok} (h : y.ty = t) (r : List STok) : First D (tok t) (y :: r) y.text r :=
  First.of_eq (tok_pos h r)

theorem First.some (h : First D p ts a r) : First D (opt p) ts (some a) r := (First.map (f := Option.some) h).orL

theorem First.none (h0 : ∀ x ∈ p ts, D x.2) : First D (opt p) ts none ts :=
  (First.ret _ _).orR fun x hx => by
    obtain ⟨b, s, h1, h2⟩ := mem_bind.1 hx
    rw [mem_pure] at h2; subst h2
    exact h0 _ h1

theorem First.noneE (h0 : p ts = []) : First D (opt p) ts Option.none ts := First.none (by rw [h0]; simp)

/-- With nothing found there is only `none`. -/
theorem opt_none (h0 : p ts = []) : opt p ts = [(none, ts)] := by
  show (p >>= fun a => pure (Option.some a)) ts ++ _ = _
  rw [bind_apply, h0]; rfl

/-- A result only if the dead rests do not go on. -/
theorem First.head {f : α → P β} {r1 : List STok} {b : β} (h1 : First D' p ts a r1) (h2 : First D (f a) r1 b r)
    (hD : ∀ c s, D' s → f c s = []) : First D (p >>= f) ts b r :=
  h1.bind h2 fun c s hs x hx => by rw [hD c s hs] at hx; cases hx

end

theorem bind_nil {p : P α} {f : α → P β} {ts : List STok} (h : p ts = []) : (p >>= f) ts = [] := by
  rw [bind_apply, h]; rfl

theorem loopN_succ (f : α → P α) (n : Nat) (a : α) : loopN f (n + 1) a = P.or (f a >>= loopN f n) (pure a) := rfl

/-- The loop stops where no step is possible. -/
theorem loopN_stop {f : α → P α} {a : α} {ts : List STok} (h : f a ts = []) : ∀ n, loopN f n a ts = [(a, ts)]
  | 0 => rfl
  | n + 1 => by rw [loopN_succ, or_apply, bind_nil h]; rfl

theorem First.step {D D' : List STok → Prop} {f : α → P α} {a b c : α} {ts r1 r : List STok} {n : Nat} (h1 : First D' (f a) ts b r1)
    (h2 : First D (loopN f n b) r1 c r) (hD : ∀ x s, D' s → ∀ y ∈ loopN f n x s, D y.2) : First D (loopN f (n + 1) a) ts c r :=
  (h1.bind h2 hD).orL

end Verif.Sv
