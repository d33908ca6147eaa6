import Verif.VhdlTextStep
import Verif.Vhdl.StmGrammar
import Verif.Spec.VhdlSeq
/-!
# VHDL sequential statements: combinators for the first parse of a text
-/
namespace Verif.Vhdl
open P Verif.Spec Verif.Spec.Lrm

section
variable {α β : Type} {D D' : List VTok → Prop} {p : P α} {f : α → P β} {u v w R : List VTok} {a : α} {b : β}

/-- The first parse of `w` in front of `R`. -/
def Rd (D : List VTok → Prop) (p : P α) (w R : List VTok) (t : α) : Prop := First D p (w ++ R) t R

theorem Rd.ret (a : α) : Rd D (pure a) [] R a := First.ret _ _

theorem Rd.bind (h1 : Rd D' p u (v ++ R) a) (h2 : Rd D (f a) v R b) (h : ∀ c s, D' s → ∀ x ∈ f c s, D x.2) : Rd D (p >>= f) (u ++ v) R b := by
  unfold Rd at *
  rw [List.append_assoc]
  exact h1.bind h2 h

theorem Rd.head (h1 : Rd D' p u (v ++ R) a) (h2 : Rd D (f a) v R b) (h : ∀ c s, D' s → f c s = []) : Rd D (p >>= f) (u ++ v) R b :=
  h1.bind h2 fun c s hs x hx => by rw [h c s hs] at hx; cases hx

theorem Rd.bindN (h1 : Rd None' p u (v ++ R) a) (h2 : Rd D (f a) v R b) : Rd D (p >>= f) (u ++ v) R b :=
  h1.bind h2 fun _ _ h => h.elim

theorem Rd.map {g : α → β} (h : Rd D p w R a) : Rd D (p >>= fun x => pure (g x)) w R (g a) := First.map h

theorem Rd.weak (h : Rd None' p w R a) : Rd D p w R a := First.weak h
theorem Rd.mono (h : Rd D' p w R a) (hD : ∀ s, D' s → D s) : Rd D p w R a := First.mono h hD

theorem Rd.tok {t : VT} {q : P β} (h1 : One t u) (h2 : Rd D q v R b) : Rd D (tok t >>= fun _ => q) (u ++ v) R b := by
  obtain ⟨y, rfl, hy⟩ := h1
  exact First.bindH (First.tok hy (v ++ R)) h2

theorem Rd.last {t : VT} (h : One t w) : Rd D (P.tok t >>= fun _ => pure b) w R b := by
  obtain ⟨y, rfl, hy⟩ := h
  exact First.bindH (First.tok hy R) (First.ret _ _)

theorem Rd.some (h : Rd D p w R a) : Rd D (opt p) w R (some a) := First.some h
theorem Rd.none (h : p R = []) : Rd D (opt p) [] R Option.none := First.noneE h
theorem Rd.orL {q : P α} (h : Rd D p w R a) : Rd D (P.or p q) w R a := First.orL h
theorem Rd.orN {q : P α} (h0 : p (w ++ R) = []) (h : Rd D q w R a) : Rd D (P.or p q) w R a := First.orN h0 h
theorem Rd.nil (h : Rd D p w R a) (hw : w = []) : Rd D p [] R a := by subst hw; exact h

end

/-- The next token is one of these. -/
def Nx (L : List VT) (R : List VTok) : Prop := ∃ t, next R = some t ∧ t ∈ L

section
variable {L L' : List VT} {u v R : List VTok}

theorem Nx.mono (h : Nx L R) (hL : ∀ t ∈ L, t ∈ L') : Nx L' R := let ⟨t, h1, h2⟩ := h; ⟨t, h1, hL t h2⟩

theorem Nx.one {t : VT} (h : One t u) (ht : t ∈ L) : Nx L (u ++ R) := by
  obtain ⟨y, rfl, hy⟩ := h
  exact ⟨t, by rw [List.cons_append, next_cons, hy], ht⟩

theorem Nx.cat {t : VT} (h : One t u) (ht : t ∈ L) : Nx L (u ++ v ++ R) := by
  rw [List.append_assoc]; exact Nx.one h ht

theorem Nx.assoc (h : Nx L (u ++ (v ++ R))) : Nx L (u ++ v ++ R) := by rwa [List.append_assoc]

theorem Nx.cons (h : Nx L R) : ∃ y s, R = y :: s ∧ y.ty ∈ L := by
  obtain ⟨t, h1, h2⟩ := h
  cases R with
  | nil => cases h1
  | cons y s => exact ⟨y, s, rfl, by cases h1; exact h2⟩

theorem Nx.not (h : Nx L R) {t : VT} (ht : t ∉ L) : next R ≠ some t := by
  obtain ⟨t', h1, h2⟩ := h
  intro e
  rw [h1] at e; cases e; exact ht h2

theorem Nx.tok (h : Nx L R) {t : VT} (ht : t ∉ L) : tok t R = [] := tok_next (h.not ht)

theorem Nx.opt {α : Type} {k : Kw} {T : α → List VTok → Prop} {o : Option α} (h : Opt' (After k T) o u) (hR : Nx L R) (hk : VT.kw k ∈ L) :
    Nx L (u ++ R) := by
  cases o with
  | none => cases h; exact hR
  | some a =>
    obtain ⟨x, y, rfl, hx, -⟩ := h
    exact Nx.cat hx hk

theorem Nx.endE (h : Nx afterExpr R) : EndE R := by
  obtain ⟨y, s, rfl, hy⟩ := h.cons
  exact after_endE hy s

theorem Nx.stuck (h : Nx L R) (hL : ∀ t ∈ L, partStart t = false) : Stuck R := by
  obtain ⟨t', h1, h2⟩ := h
  refine stuck_of_next fun t ht => ?_
  rw [h1] at ht; cases ht; exact hL _ h2

end

/-- Nothing behind the middle of a name. -/
def Kill {α : Type} (p : P α) : Prop := ∀ s, Dp s → p s = []

section
variable {α β γ : Type}

theorem Dp.ne {s : List VTok} (h : Dp s) {t : VT} (ht : partStart t = false) : next s ≠ some t := by
  obtain ⟨y, r, rfl, hy⟩ := h
  intro e
  simp only [next_cons, Option.some.injEq] at e
  rw [e, ht] at hy; cases hy

theorem Kill.tok {t : VT} {f : Str → P β} (ht : partStart t = false) : Kill (P.tok t >>= f) :=
  fun _ hs => bind_nil (tok_next (hs.ne ht))

theorem opt_dead {t : VT} {g : Str → P α} (ht : partStart t = false) {s : List VTok} (hs : Dp s) : opt (P.tok t >>= g) s = [(none, s)] :=
  opt_none (bind_nil (tok_next (hs.ne ht)))

theorem Kill.opt {t : VT} {g : Str → P α} {f : Option α → P β} (ht : partStart t = false) (hf : Kill (f none)) :
    Kill (opt (P.tok t >>= g) >>= f) := by
  intro s hs
  rw [bind_apply, opt_dead ht hs]
  simp only [List.flatMap_cons, List.flatMap_nil, List.append_nil]
  exact hf s hs

theorem many_nil {p : P α} {s : List VTok} (h : p s = []) : many p s = [([], s)] := by
  rw [many]
  cases s.length with
  | zero => rfl
  | succ m =>
    show P.or _ _ s = _
    rw [or_apply, bind_nil h]; rfl

theorem Kill.many {t : VT} {g : Str → P α} {f : List α → P β} (ht : partStart t = false) (hf : Kill (f [])) :
    Kill (many (P.tok t >>= g) >>= f) := by
  intro s hs
  rw [bind_apply, many_nil (bind_nil (tok_next (hs.ne ht)))]
  simp only [List.flatMap_cons, List.flatMap_nil, List.append_nil]
  exact hf s hs

/-- What is dead stays dead: one optional part. -/
theorem keep_opt {t : VT} {g : Str → P α} {h : Option α → β} (ht : partStart t = false) {s : List VTok} (hs : Dp s) :
    ∀ x ∈ (opt (P.tok t >>= g) >>= fun a => pure (h a)) s, Dp x.2 := by
  intro x hx
  rw [bind_apply, opt_dead ht hs] at hx
  simp only [List.flatMap_cons, List.flatMap_nil, List.append_nil] at hx
  rw [mem_pure] at hx; subst hx; exact hs

end

/-- Corresponding options. -/
def OM {α β : Type} (M : α → β → Prop) : Option α → Option β → Prop
  | none, none => True
  | some a, some b => M a b
  | _, _ => False

section
variable {α β : Type} {p : P α} {T : β → List VTok → Prop} {M : α → β → Prop} {LT : List β → List VTok → Prop} {k : Nat}

/-- `p*`: as many as there are. `Q`: what can stand behind an element, `C`: what can stand behind the list. -/
theorem many_rd {D C Q : List VTok → Prop} (hD : ∀ s, D s → p s = []) (hC : ∀ R, C R → p R = []) (hCQ : ∀ R, C R → Q R)
    (hnil : ∀ w, LT [] w → w = []) (hcons : ∀ b l w, LT (b :: l) w → ∃ u v, w = u ++ v ∧ T b u ∧ LT l v)
    (hQ : ∀ b u R, T b u → Q (u ++ R)) (hne : ∀ b u, T b u → u ≠ [])
    (good : ∀ b u R, T b u → u.length ≤ k → Q R → ∃ a, M a b ∧ Rd D p u R a) (l : List β) (w : List VTok) (h : LT l w) (hk : w.length ≤ k)
    (R : List VTok) (hR : C R) : ∃ as, List.Forall₂ M as l ∧ Rd D (many p) w R as := by
  have key : ∀ (l : List β) (w : List VTok), LT l w → w.length ≤ k → ∀ R, C R → ∀ m, w.length ≤ m →
      ∃ as, List.Forall₂ M as l ∧ Rd D (manyN p m) w R as := by
    intro l
    induction l with
    | nil =>
      intro w h hk R hR m hm
      rw [hnil w h]
      refine ⟨[], .nil, ?_⟩
      cases m with
      | zero => exact First.ret _ _
      | succ m => exact First.orN (bind_nil (hC R hR)) (First.ret _ _)
    | cons b l ih =>
      intro w h hk R hR m hm
      obtain ⟨u, v, rfl, hu, hv⟩ := hcons b l w h
      have hu0 := List.length_pos_of_ne_nil (hne b u hu)
      simp only [List.length_append] at hk hm
      obtain ⟨m, rfl⟩ : ∃ m', m = m' + 1 := ⟨m - 1, by omega⟩
      have hq : Q (v ++ R) := by
        cases l with
        | nil => rw [hnil v hv]; exact hCQ R hR
        | cons b' l =>
          obtain ⟨u', v', rfl, hu', -⟩ := hcons b' l v hv
          rw [List.append_assoc]; exact hQ b' u' _ hu'
      obtain ⟨a, ha, fa⟩ := good b u (v ++ R) hu (by omega) hq
      obtain ⟨as, has, fas⟩ := ih v hv (by omega) R hR m (by omega)
      refine ⟨a :: as, .cons ha has, First.orL ?_⟩
      refine Rd.bind fa (Rd.map (g := fun l => a :: l) fas) ?_
      intro c s hs y hy
      obtain ⟨l', s', h1, h2⟩ := mem_bind.1 hy
      rw [mem_pure] at h2; subst h2
      cases m with
      | zero => rw [manyN, mem_pure] at h1; cases h1; exact hs
      | succ m =>
        rcases mem_or.1 h1 with h | h
        · rw [bind_nil (hD s hs)] at h; cases h
        · rw [mem_pure] at h; cases h; exact hs
  exact key l w h hk R hR _ (by simp)

end

/-! ## Tokens of statements outside of expressions -/

/-- Tokens which separate values of assignments. -/
def S4 : VT → Bool
  | .SEMI => true
  | .kw .WHEN => true
  | .kw .ELSE => true
  | _ => false

theorem S4_S1 : ∀ t, S4 t = true → S1 t = true := by
  intro t h
  unfold S4 at h
  split at h <;> first | rfl | cases h

theorem seps_S4 : Seps S4 := fun t h => seps_S1 t (S4_S1 t h)

/-- A parse cannot go beyond the end of a flat text. -/
theorem flat_only {α : Type} {S : VT → Bool} (hS : Seps S) {p : P α} (hp : Snd (FlatR S) p) {w R : List VTok} (hw : Flat S w) (hR : Stops S R)
    {x : α × List VTok} (hx : x ∈ p (w ++ R)) (hs : Stops S x.2) : x.2 = R := by
  obtain ⟨u, e, hu⟩ := hp _ _ hx
  exact (hw.unique hS hu hR hs e).2.symm

/-- A rule followed by the wrong token. -/
theorem flat_no {α β : Type} {S : VT → Bool} (hS : Seps S) {p : P α} (hp : Snd (FlatR S) p) {w R : List VTok} (hw : Flat S w) {L : List VT}
    (hR : Nx L R) (hL : ∀ t ∈ L, S t = true) {t : VT} (ht : S t = true) (hn : t ∉ L) {f : α → Str → P β} :
    (p >>= fun a => tok t >>= f a) (w ++ R) = [] := by
  refine List.eq_nil_iff_forall_not_mem.2 fun x hx => ?_
  obtain ⟨a, r, h1, h2⟩ := mem_bind.1 hx
  obtain ⟨b, r', h3, -⟩ := mem_bind.1 h2
  obtain ⟨y, e, hy, -⟩ := mem_tok.1 h3
  simp only at e
  obtain ⟨z, s, rfl, hz⟩ := hR.cons
  have := flat_only hS hp hw ⟨z, s, rfl, .inr (hL _ hz)⟩ h1 ⟨y, _, e, .inr (by rw [hy]; exact ht)⟩
  simp only at this
  rw [this] at e
  cases e
  rw [hy] at hz; exact hn hz

end Verif.Vhdl
