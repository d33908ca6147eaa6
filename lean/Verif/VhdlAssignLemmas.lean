import Verif.VhdlSeqLemmas
/-!
# VHDL sequential statements: assignments are parsed right
-/
namespace Verif.Vhdl
open P Verif.Spec Verif.Spec.Lrm

theorem S4_S2 (t : VT) (h : S4 t = true) : S2 t = true := S1_S2 t (S4_S1 t h)

theorem LExpr.flat4 {e : LExpr} {w : List VTok} (h : e.Toks w) : Flat S4 w := (LExpr.flat e w h).mono S4_S2

theorem nil_flat {S : VT → Bool} {w : List VTok} (h : Nil w) : Flat S w := by cases h; exact .nil

theorem optE_flat {K : Kw} (hK : S4 (.kw K) = false) {o : Option LExpr} {w : List VTok} (h : Opt' (After K LExpr.Toks) o w) : Flat S4 w := by
  cases o with
  | none => exact nil_flat h
  | some e => exact cat_flat (fun u hu => one_flat rfl rfl (by simp) hK hu) (fun u hu => LExpr.flat4 hu) h

theorem elem_flat {p : LExpr × Option LExpr} {w : List VTok} (h : elemToks p w) : Flat S4 w :=
  cat_flat (fun _ hu => LExpr.flat4 hu) (fun _ hu => optE_flat rfl hu) h

theorem LWave.flat4 {x : LWave} {w : List VTok} (h : x.Toks w) : Flat S4 w := by
  cases x with
  | unaffected => exact one_flat rfl rfl (by decide) rfl h
  | elems e l =>
    have key : ∀ (l : List (LExpr × Option LExpr)) (w : List VTok), Rep (fun p => Cat (One .COMMA) (elemToks p)) l w → Flat S4 w := by
      intro l
      induction l with
      | nil => exact fun w h => nil_flat h
      | cons b l ih =>
        exact fun w h => cat_flat (fun u => cat_flat (fun u hu => one_flat rfl rfl (by decide) rfl hu) (fun u hu => elem_flat hu)) ih h
    exact cat_flat (fun _ hu => elem_flat hu) (key l) h

theorem LDelay.flat4 {x : LDelay} {w : List VTok} (h : x.Toks w) : Flat S4 w := by
  cases x with
  | none => exact nil_flat h
  | transport => exact one_flat rfl rfl (by decide) rfl h
  | inertial => exact one_flat rfl rfl (by decide) rfl h
  | reject e =>
    exact cat_flat (fun u hu => one_flat rfl rfl (by decide) rfl hu) (fun u => cat_flat (fun _ hu => LExpr.flat4 hu)
      (fun u hu => one_flat rfl rfl (by decide) rfl hu)) h

theorem mode_flat {m : Option ForceMode} {w : List VTok} (h : Opt' modeToks m w) : Flat S4 w := by
  cases m with
  | none => exact nil_flat h
  | some m => cases m <;> exact one_flat rfl rfl (by decide) rfl h

section
variable {M : Nat}

theorem expr_s4 (p : Nat) : Snd (FlatR S4) ((env M).expression p) := ((sound_env M).expression p).ns1.mono fun _ _ => FlatR.mono S4_S1

theorem optE_s4 {K : Kw} (hK : S4 (.kw K) = false) : Snd (FlatR S4) (opt (tok (.kw K) >>= fun _ => (env M).expression 0)) :=
  Snd.opt (flatR_rel S4) (Snd.bind (flatR_rel S4) (tok_flat rfl rfl (by simp) hK) fun _ => expr_s4 0)

theorem waveform_s4 : Snd (FlatR S4) (waveform (env M)) := by
  refine Snd.or (Snd.bind (flatR_rel S4) (Snd.sepBy (flatR_rel S4) (tok_flat rfl rfl (by decide) rfl) (Snd.or ?_ ?_)) fun _ => Snd.ret (flatR_rel S4) _)
    (Snd.bind (flatR_rel S4) (tok_flat rfl rfl (by decide) rfl) fun _ => Snd.ret (flatR_rel S4) _)
  · exact Snd.bind (flatR_rel S4) (expr_s4 0) fun _ => Snd.bind (flatR_rel S4) (optE_s4 rfl) fun _ => Snd.ret (flatR_rel S4) _
  · exact Snd.bind (flatR_rel S4) (tok_flat rfl rfl (by decide) rfl) fun _ => Snd.bind (flatR_rel S4) (optE_s4 rfl) fun _ => Snd.ret (flatR_rel S4) _

theorem delay_s4 : Snd (FlatR S4) (opt (delayMechanism (env M))) :=
  Snd.opt (flatR_rel S4) (Snd.or (Snd.bind (flatR_rel S4) (tok_flat rfl rfl (by decide) rfl) fun _ => Snd.ret (flatR_rel S4) _)
    (Snd.bind (flatR_rel S4) (optE_s4 rfl) fun _ => Snd.bind (flatR_rel S4) (tok_flat rfl rfl (by decide) rfl) fun _ => Snd.ret (flatR_rel S4) _))

theorem mode_s4 : Snd (FlatR S4) (opt forceMode) :=
  Snd.opt (flatR_rel S4) (toks_flat (by decide))

/-- Where targets end. -/
theorem target_only {x : LTarget} {w R : List VTok} (h : x.Toks w) {L : List VT} (hR : Nx L R) (hL : ∀ t ∈ L, partStart t = false)
    {y : Target × List VTok} (hy : y ∈ target (env M) (w ++ R)) : y.2 = R ∨ Dp y.2 := by
  rcases mem_or.1 hy with hy | hy <;> obtain ⟨n, r, h1, h2⟩ := mem_bind.1 hy <;> rw [mem_pure] at h2 <;> subst h2
  · have hn := (ends_env M).name _ _ h1
    cases x with
    | name n => exact hn.last (LName.to n w R h) (hR.stuck hL)
    | agg e l =>
      obtain ⟨_, _, rfl, ⟨o, rfl, ho⟩, -⟩ := h
      obtain ⟨y, s, e, hy⟩ := hn.start
      cases e; rw [ho] at hy; cases hy
  · obtain ⟨o, u, c, e, ho, hc, hu⟩ := aggregate_form (sound_env M) h1
    simp only at e
    cases x with
    | name n =>
      obtain ⟨y, s, rfl, hz⟩ := LName.start (n := n) h
      rw [(List.cons.inj e).1, ho] at hz; cases hz
    | agg x l =>
      obtain ⟨_, _, rfl, ⟨o, rfl, ho⟩, we, _, rfl, he, wl, _, rfl, hl, ⟨cc, rfl, hc'⟩⟩ := h
      have e' : (we ++ wl) ++ cc :: R = u ++ c :: r := by
        have := (List.cons.inj e).2
        rw [← this]; simp
      exact .inl (Bal.unique ((LElem.bal x we he).append (elems_bal l wl hl)) hu (by rw [hc']; rfl) (by rw [hc]; rfl) e').2.2.symm

theorem target_no {R : List VTok} {L : List VT} (hR : Nx L R) (hL : ∀ t ∈ L, nameStart t = false ∧ t ≠ .LPAREN) : target (env M) R = [] := by
  obtain ⟨y, s, rfl, hy⟩ := hR.cons
  refine or_nil (bind_nil (name_no ?_)) (bind_nil ?_)
  · intro t ht; cases ht; exact (hL _ hy).1
  · refine List.eq_nil_iff_forall_not_mem.2 fun x hx => ?_
    obtain ⟨o, u, c, e, ho, -⟩ := aggregate_form (sound_env M) hx
    cases e
    exact (hL _ hy).2 ho

theorem LTarget.start {x : LTarget} {w : List VTok} (h : x.Toks w) : ∃ y s, w = y :: s ∧ (nameStart y.ty = true ∨ y.ty = .LPAREN) := by
  cases x with
  | name n => obtain ⟨y, s, e, h⟩ := LName.start (n := n) h; exact ⟨y, s, e, .inl h⟩
  | agg e l => obtain ⟨_, _, rfl, ⟨o, rfl, ho⟩, -⟩ := h; exact ⟨o, _, rfl, .inr ho⟩

theorem LTarget.ne {x : LTarget} {w R : List VTok} (h : x.Toks w) {t : VT} (ht : nameStart t = false) (h' : t ≠ .LPAREN) : next (w ++ R) ≠ some t := by
  obtain ⟨y, s, rfl, hy⟩ := LTarget.start h
  intro e
  simp only [List.cons_append, next_cons, Option.some.injEq] at e
  rcases hy with hy | hy
  · rw [e, ht] at hy; cases hy
  · exact h' (e ▸ hy)

/-- A target followed by the wrong token. -/
theorem tgt_no {γ : Type} {x : LTarget} {w R : List VTok} (h : x.Toks w) {L : List VT} (hR : Nx L R) (hL : ∀ t ∈ L, partStart t = false)
    {t : VT} (ht : partStart t = false) (hn : t ∉ L) {f : Target → Str → P γ} : (target (env M) >>= fun a => tok t >>= f a) (w ++ R) = [] := by
  refine List.eq_nil_iff_forall_not_mem.2 fun x hx => ?_
  obtain ⟨a, r, h1, h2⟩ := mem_bind.1 hx
  rcases target_only h hR hL h1 with e | e <;> simp only at e
  · subst e; rw [bind_nil (hR.tok hn)] at h2; cases h2
  · rw [bind_nil (tok_next (e.ne ht))] at h2; cases h2

/-- A target followed by the right token and something wrong. -/
theorem tgt_after {γ : Type} {x : LTarget} {w : List VTok} (h : x.Toks w) {t : VT} (ht : partStart t = false) {u R : List VTok} (hu : One t u)
    {f : Target → Str → P γ} (hf : ∀ a b, f a b R = []) : (target (env M) >>= fun a => tok t >>= f a) (w ++ (u ++ R)) = [] := by
  refine List.eq_nil_iff_forall_not_mem.2 fun x hx => ?_
  obtain ⟨a, r, h1, h2⟩ := mem_bind.1 hx
  rcases target_only h (L := [t]) (Nx.one hu (by simp)) (by simp [ht]) h1 with e | e <;> simp only at e
  · obtain ⟨b, r', h3, h4⟩ := mem_bind.1 h2
    obtain ⟨y, rfl, hy⟩ := hu
    rw [e, List.singleton_append, tok_pos hy] at h3
    simp only [List.mem_singleton, Prod.mk.injEq] at h3
    rw [h3.2, hf] at h4; cases h4
  · rw [bind_nil (tok_next (e.ne ht))] at h2; cases h2

/-- The head of a selected assignment. -/
theorem sel_no {γ : Type} {e : LExpr} {q : Bool} {u1 u2 u3 u4 u5 R : List VTok} (h1 : Word .WITH u1) (h2 : e.Toks u2) (h3 : Word .SELECT u3)
    (h4 : Flag .QUESTIONMARK q u4) {x : LTarget} (h5 : x.Toks u5) {t : VT} {f : Expression × Bool → Target → Str → P γ}
    (hf : ∀ h, (target (env M) >>= fun a => tok t >>= f h a) (u5 ++ R) = []) :
    (selectHead (env M) >>= fun h => target (env M) >>= fun a => tok t >>= f h a) (u1 ++ (u2 ++ (u3 ++ (u4 ++ (u5 ++ R))))) = [] := by
  refine List.eq_nil_iff_forall_not_mem.2 fun x hx => ?_
  obtain ⟨a, r, hx, hy⟩ := mem_bind.1 hx
  obtain ⟨b, r1, g1, hx⟩ := mem_bind.1 hx
  obtain ⟨c, r2, g2, hx⟩ := mem_bind.1 hx
  obtain ⟨d, r3, g3, hx⟩ := mem_bind.1 hx
  obtain ⟨d', r4, g4, hx⟩ := mem_bind.1 hx
  rw [mem_pure] at hx; cases hx
  obtain ⟨y1, rfl, hy1⟩ := h1
  obtain ⟨y3, rfl, hy3⟩ := h3
  rw [List.singleton_append, tok_pos hy1] at g1
  simp only [List.mem_singleton, Prod.mk.injEq] at g1
  rw [g1.2] at g2
  obtain ⟨z, ez, hz, -⟩ := mem_tok.1 g3
  simp only at ez
  have this : r2 = [y3] ++ (u4 ++ (u5 ++ R)) := flat_only seps_S1 ((sound_env M).expression 0).ns1 ((LExpr.flat e u2 h2).mono S1_S2)
    ⟨y3, _, rfl, .inr (by rw [hy3]; rfl)⟩ g2 ⟨z, _, ez, .inr (by rw [hz]; rfl)⟩
  rw [this, List.singleton_append, tok_pos hy3] at g3
  simp only [List.mem_singleton, Prod.mk.injEq] at g3
  rw [g3.2] at g4
  obtain ⟨o, r5, g4, g5⟩ := mem_bind.1 g4
  rw [mem_pure] at g5; cases g5
  have hq : ∀ v, tok .QUESTIONMARK (u5 ++ v) = [] := fun v => tok_next (LTarget.ne h5 rfl (by decide))
  rcases mem_or.1 g4 with g | g
  · obtain ⟨o', r6, g, g5⟩ := mem_bind.1 g
    rw [mem_pure] at g5; cases g5
    cases q with
    | false => cases h4; rw [List.nil_append, hq] at g; cases g
    | true =>
      obtain ⟨y4, rfl, hy4⟩ := h4
      rw [List.singleton_append, tok_pos hy4] at g
      simp only [List.mem_singleton, Prod.mk.injEq] at g
      rw [g.2, hf] at hy; cases hy
  · rw [mem_pure] at g; cases g
    cases q with
    | false => cases h4; rw [List.nil_append, hf] at hy; cases hy
    | true =>
      obtain ⟨y4, rfl, hy4⟩ := h4
      rw [bind_nil (target_no (L := [.QUESTIONMARK]) (Nx.one ⟨y4, rfl, hy4⟩ (by decide)) (by decide))] at hy; cases hy

theorem head_no {γ : Type} {R : List VTok} (h : next R ≠ some (.kw .WITH)) {f : Expression × Bool → P γ} : (selectHead (env M) >>= f) R = [] :=
  bind_nil (bind_nil (tok_next h))

theorem flag_rd {D : List VTok → Prop} {t : VT} {q : Bool} {w R : List VTok} (h : Flag t q w) (hR : next R ≠ some t) : Rd D (flag t) w R q := by
  cases q with
  | false => cases h; exact Rd.map (g := Option.isSome) (Rd.none (tok_next hR))
  | true =>
    obtain ⟨y, rfl, hy⟩ := h
    exact Rd.map (g := Option.isSome) (a := Option.some y.text) (Rd.some (First.tok hy R))

end

/-! ## The meaning -/

section
variable {V : Type} {A : Alg V}

theorem firstTrue_congr {α β : Type} {Mx : α → β → Prop} {f : α → V} {g : β → V} (hf : ∀ a b, Mx a b → f a = g b)
    {t : (α × Expression) × List (α × Expression) × Option α} {x : LCond β} (h : MCd A Mx t x) :
    firstTrue A.truth ((t.2.2.map f).getD A.unaffected) ((t.1 :: t.2.1).map fun p => (f p.1, evExpression A p.2)) = x.eval A g := by
  have h1 : (t.2.2.map f).getD A.unaffected = match x.dflt with | none => A.unaffected | some y => g y := by
    have := h.dflt
    revert this
    cases t.2.2 <;> cases x.dflt <;> intro this
    · rfl
    · exact this.elim
    · exact this.elim
    · exact hf _ _ this
  have h2 : (t.1 :: t.2.1).map (fun p => (f p.1, evExpression A p.2)) = (x.head :: x.tail).map fun p => (g p.1, p.2.eval A) := by
    have key : ∀ {l : List (α × Expression)} {l' : List (β × LExpr)}, List.Forall₂ (fun a b => Mx a.1 b.1 ∧ ME A a.2 b.2) l l' →
        l.map (fun p => (f p.1, evExpression A p.2)) = l'.map fun p => (g p.1, p.2.eval A) := by
      intro l l' h
      induction h with
      | nil => rfl
      | cons h _ ih => rw [List.map_cons, List.map_cons, ih, hf _ _ h.1, h.2.ev]
    exact key (.cons h.head h.tail)
  unfold LCond.eval
  rw [h1, h2]
  cases x.dflt <;> rfl

theorem isOthers_eq {t : Choice} {c : LChoice} (h : MC A t c) : Choice.isOthers t = c.isOthers := by
  have := h.oth
  cases t <;> cases c <;> first | rfl | cases this

theorem any_eq {t : List Choice} {l : List LChoice} (h : List.Forall₂ (MC A) t l) : t.any Choice.isOthers = l.any LChoice.isOthers := by
  induction h with
  | nil => rfl
  | cons h _ ih => rw [List.any_cons, List.any_cons, ih, isOthers_eq h]

theorem pairs_eq {S : Type} {t : List Choice} {l : List LChoice} (h : List.Forall₂ (MC A) t l) (s : S) :
    ((t.filter fun c => !Choice.isOthers c).map fun c => (evChoice A c, s)) = (l.filter fun c => !c.isOthers).map fun c => (c.eval A, s) := by
  induction h with
  | nil => rfl
  | cons h _ ih =>
    rw [List.filter_cons, List.filter_cons, isOthers_eq h]
    split
    · rw [List.map_cons, List.map_cons, ih, h.ev]
    · exact ih

theorem alts_eq {S : Type} {t : List (List Choice × S)} {l : List (LChoices × S)} (h : List.Forall₂ (fun a b => MCs A a.1 b.1 ∧ a.2 = b.2) t l) :
    evAlts A t = altPairs A l ∧ evOthers t = altOthers l := by
  induction h with
  | nil => exact ⟨rfl, rfl⟩
  | cons h _ ih =>
    constructor
    · unfold evAlts altPairs at *
      rw [List.flatMap_cons, List.flatMap_cons, ih.1, h.2, pairs_eq h.1]
    · rw [evOthers, altOthers, ih.2, any_eq h.1, h.2]

theorem sel_eq {S α β : Type} {B : SAlg V S} {Mx : α → β → Prop} {f : α → S} {f' : β → S} (hf : ∀ a b, Mx a b → f a = f' b) {te : Expression}
    {e : LExpr} (he : ME A te e) (q : Bool) {t : List (α × List Choice)} {l : LSel β} (h : MSl A Mx t l) :
    B.case q (evExpression A te) (evAlts A (t.map fun p => (p.2, f p.1))) (evOthers (t.map fun p => (p.2, f p.1))) = l.eval A B q e f' := by
  have key : ∀ {t : List (α × List Choice)} {l : List (β × LChoices)}, List.Forall₂ (fun a b => Mx a.1 b.1 ∧ MCs A a.2 b.2) t l →
      List.Forall₂ (fun a b => MCs A a.1 b.1 ∧ a.2 = b.2) (t.map fun p => (p.2, f p.1)) (l.map fun p => (p.2, f' p.1)) := by
    intro t l h
    induction h with
    | nil => exact .nil
    | cons h _ ih => exact .cons ⟨h.2, hf _ _ h.1⟩ ih
  have := alts_eq (key h)
  unfold LSel.eval
  rw [he.ev, this.1, this.2]

/-- An assignment. -/
structure MAs (A : Alg V) (t : SeqKind) (a : LAssign) : Prop where
  ev : ∀ {S : Type} (B : SAlg V S), evSeqKind A B t = a.eval A B
  ok : LAssign.Ok a → okSeqKind t
  lab : t.endLabel = none

theorem fall_mem {α β : Type} {P : α → β → Prop} {l : List α} {l' : List β} (h : List.Forall₂ P l l') {a : α} (ha : a ∈ l) : ∃ b ∈ l', P a b := by
  induction h with
  | nil => cases ha
  | cons h _ ih =>
    rcases List.mem_cons.1 ha with rfl | ha
    · exact ⟨_, List.mem_cons_self .., h⟩
    · obtain ⟨b, hb, hp⟩ := ih ha
      exact ⟨b, List.mem_cons_of_mem _ hb, hp⟩

theorem mas_cond {tt : Target} {x : LTarget} (ht : MTg A tt x) {td : Option Delay} {d : LDelay} (hd : MDl A td d)
    {t : (Waveform × Expression) × List (Waveform × Expression) × Option Waveform} {c : LCond LWave} (h : MCd A (MW A) t c) :
    MAs A (.sig (.cond tt td ⟨t.1, t.2.1, t.2.2⟩)) (.waveCond x d c) := by
  refine ⟨fun B => ?_, fun hok => ?_, rfl⟩
  · simp only [evSeqKind, evSigAssign, LAssign.eval, hd.ev, ht.ev, evCondWaves]
    rw [firstTrue_congr (g := LWave.eval A) (fun a b h => h.ev) h]
  · cases d with
    | none =>
      obtain ⟨h1, h2, h3⟩ := hok
      simp only [okSeqKind, hd.no rfl, okSig]
      refine ⟨ht.ok h1, fun p hp => ?_, fun w hw => ?_⟩
      · obtain ⟨b, hb, hm⟩ := fall_mem (P := fun (a : Waveform × Expression) (b : LWave × LExpr) => MW A a.1 b.1 ∧ ME A a.2 b.2) (List.Forall₂.cons h.head h.tail) hp
        exact ⟨hm.1.ok (h2 b hb).1, hm.2.ok (h2 b hb).2⟩
      · have hdf := h.dflt
        simp only at hw
        rw [hw] at hdf
        cases hc : c.dflt with
        | none => rw [hc] at hdf; exact hdf.elim
        | some b => rw [hc] at hdf; exact MW.ok hdf (h3 b hc)
    | _ => exact hok.elim

theorem evCondExprs_eq {t : (Expression × Expression) × List (Expression × Expression) × Option Expression} {c : LCond LExpr} (h : MCd A (ME A) t c) :
    evCondExprs A ⟨t.1, t.2.1, t.2.2⟩ = c.eval A (LExpr.eval A) :=
  firstTrue_congr (g := LExpr.eval A) (fun _ _ h => h.ev) h

end

/-! ## The parses -/

theorem mode_rd {D : List VTok → Prop} {m : Option ForceMode} {w R : List VTok} (h : Opt' modeToks m w) (h1 : next R ≠ some (.kw .IN))
    (h2 : next R ≠ some (.kw .OUT)) : Rd D (opt forceMode) w R m := by
  cases m with
  | none =>
    cases h
    refine Rd.none ?_
    cases R with
    | nil => rfl
    | cons y s =>
      refine toks_neg (fun a => ?_) s
      intro hm
      simp only [List.mem_cons, Prod.mk.injEq, List.not_mem_nil, or_false] at hm
      rcases hm with ⟨h, -⟩ | ⟨h, -⟩
      · exact h1 (by rw [next_cons, h])
      · exact h2 (by rw [next_cons, h])
  | some m =>
    cases m <;> obtain ⟨y, rfl, hy⟩ := h
    · exact Rd.some (First.orL (First.bindH (First.tok hy R) (First.ret _ _)))
    · exact Rd.some (First.orN (bind_nil (tok_neg (by rw [hy]; decide) R)) (First.bindH (First.tok hy R) (First.ret _ _)))

/-- Two rules followed by the wrong token. -/
theorem flat_no2 {α β γ : Type} {S : VT → Bool} (hS : Seps S) {p : P α} {q : α → P β} (hp : Snd (FlatR S) p) (hq : ∀ a, Snd (FlatR S) (q a))
    {w R : List VTok} (hw : Flat S w) {L : List VT}
    (hR : Nx L R) (hL : ∀ t ∈ L, S t = true) {t : VT} (ht : S t = true) (hn : t ∉ L) {f : α → β → Str → P γ} :
    (p >>= fun a => q a >>= fun b => tok t >>= f a b) (w ++ R) = [] := by
  have := flat_no (f := fun (x : α × β) => f x.1 x.2) hS (p := p >>= fun a => q a >>= fun b => pure (a, b))
    (Snd.bind (flatR_rel S) hp fun a => Snd.bind (flatR_rel S) (hq a) fun b => Snd.ret (flatR_rel S) _) hw hR hL ht hn
  refine List.eq_nil_iff_forall_not_mem.2 fun x hx => ?_
  obtain ⟨a, r, h1, h2⟩ := mem_bind.1 hx
  obtain ⟨b, r', h3, h4⟩ := mem_bind.1 h2
  refine absurd this (List.ne_nil_of_mem (a := x) ?_)
  exact mem_bind.2 ⟨(a, b), r', mem_bind.2 ⟨a, r, h1, mem_bind.2 ⟨b, r', h3, mem_pure.2 rfl⟩⟩, h4⟩

section
variable {M : Nat}

theorem LWave.nx {x : LWave} {w R : List VTok} (h : x.Toks w) : ∃ t, next (w ++ R) = some t ∧ (expStart t = true ∨ t = .kw .UNAFFECTED) := by
  cases x with
  | unaffected => obtain ⟨y, rfl, hy⟩ := h; exact ⟨y.ty, rfl, .inr hy⟩
  | elems e l =>
    obtain ⟨_, v, rfl, ⟨u, z, rfl, hu, -⟩, -⟩ := h
    rw [List.append_assoc, List.append_assoc]
    obtain ⟨t, h1, h2⟩ := LExpr.nx hu (R := z ++ (v ++ R))
    exact ⟨t, h1, .inl h2⟩

theorem LWave.ne {x : LWave} {w R : List VTok} (h : x.Toks w) {t : VT} (ht : expStart t = false) (h' : t ≠ .kw .UNAFFECTED) : next (w ++ R) ≠ some t := by
  obtain ⟨t', h1, h2⟩ := LWave.nx h (R := R)
  rw [h1]
  rintro ⟨⟩
  rcases h2 with h | h
  · rw [ht] at h; cases h
  · exact h' h

theorem LExpr.ne {x : LExpr} {w R : List VTok} (h : x.Toks w) {t : VT} (ht : expStart t = false) : next (w ++ R) ≠ some t := by
  obtain ⟨t', h1, h2⟩ := LExpr.nx h (R := R)
  rw [h1]
  rintro ⟨⟩
  rw [ht] at h2; cases h2

/-- Neither `force` nor `release` in front of a waveform. -/
theorem dw_ne {d : LDelay} {wd R : List VTok} (hd : d.Toks wd) {t : VT} (ht : t = .kw .FORCE ∨ t = .kw .RELEASE) (hR : next R ≠ some t) :
    next (wd ++ R) ≠ some t := by
  cases d with
  | none => cases hd; exact hR
  | transport | inertial => obtain ⟨y, rfl, hy⟩ := hd; rintro ⟨⟩; rcases ht with h | h <;> rw [hy] at h <;> cases h
  | reject e =>
    obtain ⟨_, _, rfl, ⟨y, rfl, hy⟩, -⟩ := hd
    rintro ⟨⟩; rcases ht with h | h <;> rw [hy] at h <;> cases h

theorem waveform_no {R : List VTok} (hR : Nx [.kw .FORCE, .kw .RELEASE] R) : waveform (env M) R = [] :=
  or_nil (bind_nil (bind_nil (or_nil (bind_nil (expr_no hR (by decide))) (bind_nil (hR.tok (by decide)))))) (bind_nil (hR.tok (by decide)))

theorem dw_no {γ : Type} {R : List VTok} (hR : Nx [.kw .FORCE, .kw .RELEASE] R) {f : Option Delay → P γ} (hf : f none R = []) :
    (opt (delayMechanism (env M)) >>= f) R = [] := by
  rw [bind_apply, opt_none (delay_no (hR.not (by decide)) (hR.not (by decide)) (hR.not (by decide)))]
  simp only [List.flatMap_cons, List.flatMap_nil, List.append_nil]
  exact hf

/-! ### No assignments -/

theorem sig_no1 {x : LTarget} {w R : List VTok} (h : x.Toks w) {L : List VT} (hR : Nx L R) (hL : ∀ t ∈ L, partStart t = false)
    (hn : VT.CONASGN ∉ L) : signalAssignment (env M) (w ++ R) = [] := by
  have hw : next (w ++ R) ≠ some (.kw .WITH) := LTarget.ne h rfl (by decide)
  exact or_nil (or_nil (tgt_no h hR hL rfl hn) (or_nil (tgt_no h hR hL rfl hn) (tgt_no h hR hL rfl hn)))
    (or_nil (or_nil (tgt_no h hR hL rfl hn) (tgt_no h hR hL rfl hn)) (or_nil (head_no hw) (head_no hw)))

theorem var_no1 {x : LTarget} {w R : List VTok} (h : x.Toks w) {L : List VT} (hR : Nx L R) (hL : ∀ t ∈ L, partStart t = false)
    (hn : VT.VARASGN ∉ L) : variableAssignment (env M) (w ++ R) = [] := by
  have hw : next (w ++ R) ≠ some (.kw .WITH) := LTarget.ne h rfl (by decide)
  exact or_nil (tgt_no h hR hL rfl hn) (or_nil (tgt_no h hR hL rfl hn) (head_no hw))

theorem sig_no2 {R : List VTok} {L : List VT} (hR : Nx L R) (hL : ∀ t ∈ L, nameStart t = false ∧ t ≠ .LPAREN)
    (h1 : selectedWaveformAssignment (env M) R = []) (h2 : selectedForceAssignment (env M) R = []) : signalAssignment (env M) R = [] := by
  have := target_no (M := M) hR hL
  exact or_nil (or_nil (bind_nil this) (or_nil (bind_nil this) (bind_nil this))) (or_nil (or_nil (bind_nil this) (bind_nil this)) (or_nil h1 h2))

/-- Neither an assignment nor a call. -/
theorem assign_no {R : List VTok} {L : List VT} (hR : Nx L R) (hL : ∀ t ∈ L, nameStart t = false ∧ t ≠ .LPAREN ∧ t ≠ .kw .WITH) :
    signalAssignment (env M) R = [] ∧ variableAssignment (env M) R = [] ∧ procedureCall (env M) R = [] := by
  have hw : next R ≠ some (.kw .WITH) := hR.not fun h => (hL _ h).2.2 rfl
  have ht := target_no (M := M) hR fun t h => ⟨(hL t h).1, (hL t h).2.1⟩
  refine ⟨sig_no2 hR (fun t h => ⟨(hL t h).1, (hL t h).2.1⟩) (head_no hw) (head_no hw), or_nil (bind_nil ht) (or_nil (bind_nil ht) (head_no hw)),
    bind_nil (name_no ?_)⟩
  intro t h
  obtain ⟨t', h1, h2⟩ := hR
  rw [h1] at h; cases h; exact (hL _ h2).1

end

/-! ### Assignments -/

section
variable {V : Type} {A : Alg V} {k M : Nat} (g : Good A k) (hM : 3 * k + 2 < M)
include g hM

theorem head_rd {e : LExpr} {q : Bool} {u1 u2 u3 u4 R : List VTok} (h1 : Word .WITH u1) (h2 : e.Toks u2) (h3 : Word .SELECT u3)
    (h4 : Flag .QUESTIONMARK q u4) (hk : u2.length ≤ k) (hR : next R ≠ some .QUESTIONMARK) :
    ∃ t, ME A t e ∧ Rd None' (selectHead (env M)) (u1 ++ (u2 ++ (u3 ++ u4))) R (t, q) := by
  obtain ⟨t, ht, f⟩ := expr_rd g hM h2 hk (R := (u3 ++ u4) ++ R) (Nx.cat h3 (by decide))
  exact ⟨t, ht, Rd.tok h1 (Rd.head f (Rd.tok h3 (Rd.map (g := fun q => (t, q)) (flag_rd h4 hR))) fun _ => Kill.tok rfl)⟩

theorem wave_good {x : LTarget} {d : LDelay} {y : LWave} {w R : List VTok} (h : (LAssign.wave x d y).Toks w) (hk : w.length ≤ k) :
    ∃ a, MAs A (.sig a) (.wave x d y) ∧ Rd None' (signalAssignment (env M)) w R a := by
  obtain ⟨wt, _, rfl, ht, wa, _, rfl, ha, _, ws, rfl, ⟨wd, ww, rfl, hd, hw⟩, hs⟩ := h
  simp only [List.length_append] at hk
  rw [List.append_assoc wd]
  obtain ⟨tt, mt, ft⟩ := target_rd g hM ht (R := (wa ++ (wd ++ (ww ++ ws))) ++ R) (L := [.CONASGN]) (by omega) (Nx.cat ha (by decide)) (by decide)
  obtain ⟨td, md, fd⟩ := delay_rd g hM hd (R := (ww ++ ws) ++ R) (by omega) (by rw [List.append_assoc]; exact LWave.ne hw rfl (by decide))
    (by rw [List.append_assoc]; exact LWave.ne hw rfl (by decide)) (by rw [List.append_assoc]; exact LWave.ne hw rfl (by decide))
  obtain ⟨tw, mw, fw⟩ := waveform_rd g hM hw (R := ws ++ R) (by omega) (Nx.one hs (by decide))
  refine ⟨.wave tt td tw, ⟨fun B => ?_, fun hok => ?_, rfl⟩, ?_⟩
  · simp only [evSeqKind, evSigAssign, LAssign.eval, md.ev, mt.ev, mw.ev]
  · cases d with
    | none => simp only [okSeqKind, md.no rfl, okSig]; exact ⟨mt.ok hok.1, mw.ok hok.2⟩
    | _ => exact hok.elim
  · exact Rd.orL (Rd.orL (Rd.bindN ft (Rd.tok ha (Rd.bindN fd (Rd.head fw (Rd.last hs) fun _ => Kill.tok rfl)))))

theorem force_good {x : LTarget} {m : Option ForceMode} {y : LExpr} {w R : List VTok} (h : (LAssign.force x m y).Toks w) (hk : w.length ≤ k) :
    ∃ a, MAs A (.sig a) (.force x m y) ∧ Rd None' (signalAssignment (env M)) w R a := by
  obtain ⟨wt, _, rfl, ht, wa, _, rfl, ha, _, ws, rfl, ⟨wf, _, rfl, hf, wm, we, rfl, hm, he⟩, hs⟩ := h
  simp only [List.length_append] at hk
  rw [List.append_assoc wf, List.append_assoc wm]
  obtain ⟨tt, mt, ft⟩ := target_rd g hM ht (R := (wa ++ (wf ++ (wm ++ (we ++ ws)))) ++ R) (L := [.CONASGN]) (by omega) (Nx.cat ha (by decide)) (by decide)
  obtain ⟨te, me, fe⟩ := expr_rd g hM he (R := ws ++ R) (by omega) (Nx.one hs (by decide))
  refine ⟨.force tt m te, ⟨fun B => ?_, fun hok => hok.elim, rfl⟩, Rd.orL (Rd.orN ?_ (Rd.orL ?_))⟩
  · simp only [evSeqKind, evSigAssign, LAssign.eval, mt.ev, me.ev]
  · rw [List.append_assoc, List.append_assoc]
    refine tgt_after ht rfl ha fun _ _ => ?_
    have hn : Nx [.kw .FORCE, .kw .RELEASE] ((wf ++ (wm ++ (we ++ ws))) ++ R) := Nx.cat hf (by decide)
    exact dw_no hn (bind_nil (waveform_no hn))
  · refine Rd.bindN ft (Rd.tok ha (Rd.tok hf (Rd.bindN (mode_rd hm ?_ ?_) (Rd.head fe (Rd.last hs) fun _ => Kill.tok rfl))))
    · rw [List.append_assoc]; exact LExpr.ne he rfl
    · rw [List.append_assoc]; exact LExpr.ne he rfl

theorem release_good {x : LTarget} {m : Option ForceMode} {w R : List VTok} (h : (LAssign.release x m).Toks w) (hk : w.length ≤ k) :
    ∃ a, MAs A (.sig a) (.release x m) ∧ Rd None' (signalAssignment (env M)) w R a := by
  obtain ⟨wt, _, rfl, ht, wa, _, rfl, ha, _, ws, rfl, ⟨wf, wm, rfl, hf, hm⟩, hs⟩ := h
  simp only [List.length_append] at hk
  rw [List.append_assoc wf]
  obtain ⟨tt, mt, ft⟩ := target_rd g hM ht (R := (wa ++ (wf ++ (wm ++ ws))) ++ R) (L := [.CONASGN]) (by omega) (Nx.cat ha (by decide)) (by decide)
  have hn : Nx [.kw .RELEASE] ((wf ++ (wm ++ ws)) ++ R) := Nx.cat hf (by decide)
  refine ⟨.release tt m, ⟨fun B => ?_, fun hok => hok.elim, rfl⟩, Rd.orL (Rd.orN ?_ (Rd.orN ?_ ?_))⟩
  · simp only [evSeqKind, evSigAssign, LAssign.eval, mt.ev]
  · rw [List.append_assoc, List.append_assoc]
    exact tgt_after ht rfl ha fun _ _ => dw_no (hn.mono (by decide)) (bind_nil (waveform_no (hn.mono (by decide))))
  · rw [List.append_assoc, List.append_assoc]
    exact tgt_after ht rfl ha fun _ _ => bind_nil (hn.tok (by decide))
  · have hs' : Nx [.SEMI] (ws ++ R) := Nx.one hs (by decide)
    exact Rd.bindN ft (Rd.tok ha (Rd.tok hf (Rd.bindN (mode_rd hm (hs'.not (by decide)) (hs'.not (by decide))) (Rd.last hs))))

theorem waveCond_good {x : LTarget} {d : LDelay} {y : LCond LWave} {w R : List VTok} (h : (LAssign.waveCond x d y).Toks w) (hk : w.length ≤ k) :
    ∃ a, MAs A (.sig a) (.waveCond x d y) ∧ Rd None' (signalAssignment (env M)) w R a := by
  obtain ⟨wt, _, rfl, ht, wa, _, rfl, ha, _, ws, rfl, ⟨wd, ww, rfl, hd, hw⟩, hs⟩ := h
  simp only [List.length_append] at hk
  rw [List.append_assoc wd]
  obtain ⟨tt, mt, ft⟩ := target_rd g hM ht (R := (wa ++ (wd ++ (ww ++ ws))) ++ R) (L := [.CONASGN]) (by omega) (Nx.cat ha (by decide)) (by decide)
  have hw' := hw
  obtain ⟨_, v, rfl, ⟨w1, _, rfl, hw1, w2, w3, rfl, hw2, -⟩, -⟩ := hw'
  have hne : ∀ t, expStart t = false → t ≠ .kw .UNAFFECTED → ∀ R, next (w1 ++ (w2 ++ w3) ++ v ++ R) ≠ some t := by
    intro t h1 h2 R
    rw [List.append_assoc, List.append_assoc]
    exact LWave.ne hw1 h1 h2
  obtain ⟨td, md, fd⟩ := delay_rd g hM hd (R := ((w1 ++ (w2 ++ w3) ++ v) ++ ws) ++ R) (by omega) (by rw [List.append_assoc]; exact hne _ rfl (by decide) _)
    (by rw [List.append_assoc]; exact hne _ rfl (by decide) _) (by rw [List.append_assoc]; exact hne _ rfl (by decide) _)
  obtain ⟨tw, mw, fw⟩ := conditional_rd g hM (fun b u R hb hk hR => waveform_rd g hM hb hk hR) waveform_s4 (fun b u hb => LWave.flat4 hb) hw (R := ws ++ R)
    (by simp only [List.length_append] at *; omega) (Nx.one hs (by decide))
  refine ⟨.cond tt td ⟨tw.1, tw.2.1, tw.2.2⟩, mas_cond mt md mw, Rd.orN (or_nil ?_ (or_nil ?_ ?_)) (Rd.orL (Rd.orL ?_))⟩
  · rw [List.append_assoc, List.append_assoc]
    refine tgt_after ht rfl ha fun _ _ => ?_
    rw [show (wd ++ (w1 ++ (w2 ++ w3) ++ v ++ ws)) ++ R = (wd ++ w1) ++ ((w2 ++ (w3 ++ (v ++ ws))) ++ R) from by simp]
    exact flat_no2 seps_S4 delay_s4 (fun _ => waveform_s4) ((LDelay.flat4 hd).append (LWave.flat4 hw1)) (L := [.kw .WHEN]) (Nx.cat hw2 (by decide))
      (by decide) rfl (by decide)
  · rw [List.append_assoc, List.append_assoc]
    refine tgt_after ht rfl ha fun _ _ => bind_nil (tok_next ?_)
    rw [List.append_assoc, List.append_assoc]
    exact dw_ne hd (.inl rfl) (hne _ rfl (by decide) _)
  · rw [List.append_assoc, List.append_assoc]
    refine tgt_after ht rfl ha fun _ _ => bind_nil (tok_next ?_)
    rw [List.append_assoc, List.append_assoc]
    exact dw_ne hd (.inr rfl) (hne _ rfl (by decide) _)
  · exact Rd.bindN ft (Rd.tok ha (Rd.bindN fd (Rd.head (Rd.map (g := fun x => (⟨x.1, x.2.1, x.2.2⟩ : CondWaves)) fw) (Rd.last hs) fun _ => Kill.tok rfl)))

theorem forceCond_good {x : LTarget} {m : Option ForceMode} {y : LCond LExpr} {w R : List VTok} (h : (LAssign.forceCond x m y).Toks w) (hk : w.length ≤ k) :
    ∃ a, MAs A (.sig a) (.forceCond x m y) ∧ Rd None' (signalAssignment (env M)) w R a := by
  obtain ⟨wt, _, rfl, ht, wa, _, rfl, ha, _, ws, rfl, ⟨wf, _, rfl, hf, wm, we, rfl, hm, he⟩, hs⟩ := h
  simp only [List.length_append] at hk
  rw [List.append_assoc wf, List.append_assoc wm]
  obtain ⟨tt, mt, ft⟩ := target_rd g hM ht (R := (wa ++ (wf ++ (wm ++ (we ++ ws)))) ++ R) (L := [.CONASGN]) (by omega) (Nx.cat ha (by decide)) (by decide)
  have he' := he
  obtain ⟨_, v, rfl, ⟨w1, _, rfl, hw1, w2, w3, rfl, hw2, -⟩, -⟩ := he'
  have hne : ∀ t, expStart t = false → ∀ R, next (w1 ++ (w2 ++ w3) ++ v ++ R) ≠ some t := by
    intro t h1 R
    rw [List.append_assoc, List.append_assoc]
    exact LExpr.ne hw1 h1
  obtain ⟨te, me, fe⟩ := conditional_rd g hM (fun b u R hb hk hR => expr_rd g hM hb hk (hR.mono (by decide))) (expr_s4 0) (fun b u hb => LExpr.flat4 hb) he
    (R := ws ++ R) (by simp only [List.length_append] at *; omega) (Nx.one hs (by decide))
  have hn : ∀ R, Nx [.kw .FORCE] ((wf ++ (wm ++ (w1 ++ (w2 ++ w3) ++ v ++ ws))) ++ R) := fun R => Nx.cat hf (by decide)
  refine ⟨.condForce tt m ⟨te.1, te.2.1, te.2.2⟩, ⟨fun B => ?_, fun hok => hok.elim, rfl⟩, Rd.orN (or_nil ?_ (or_nil ?_ ?_)) (Rd.orL (Rd.orN ?_ ?_))⟩
  · simp only [evSeqKind, evSigAssign, LAssign.eval, mt.ev, evCondExprs_eq me]
  · rw [List.append_assoc, List.append_assoc]
    exact tgt_after ht rfl ha fun _ _ => dw_no ((hn R).mono (by decide)) (bind_nil (waveform_no ((hn R).mono (by decide))))
  · rw [List.append_assoc, List.append_assoc]
    refine tgt_after ht rfl ha fun _ _ => ?_
    obtain ⟨y, rfl, hy⟩ := hf
    rw [List.append_assoc, List.singleton_append, bind_apply, tok_pos hy]
    simp only [List.flatMap_cons, List.flatMap_nil, List.append_nil]
    rw [show (wm ++ (w1 ++ (w2 ++ w3) ++ v ++ ws)) ++ R = (wm ++ w1) ++ ((w2 ++ (w3 ++ (v ++ ws))) ++ R) from by simp]
    exact flat_no2 seps_S4 mode_s4 (fun _ => expr_s4 0) ((mode_flat hm).append (LExpr.flat4 hw1)) (L := [.kw .WHEN]) (Nx.cat hw2 (by decide))
      (by decide) rfl (by decide)
  · rw [List.append_assoc, List.append_assoc]
    exact tgt_after ht rfl ha fun _ _ => bind_nil ((hn R).tok (by decide))
  · rw [List.append_assoc, List.append_assoc]
    exact tgt_after ht rfl ha fun _ _ => dw_no ((hn R).mono (by decide)) (bind_nil (bind_nil (bind_nil (waveform_no ((hn R).mono (by decide))))))
  · refine Rd.bindN ft (Rd.tok ha (Rd.tok hf (Rd.bindN (mode_rd hm ?_ ?_)
      (Rd.head (Rd.map (g := fun x => (⟨x.1, x.2.1, x.2.2⟩ : CondExprs)) fe) (Rd.last hs) fun _ => Kill.tok rfl))))
    · rw [List.append_assoc]; exact hne _ rfl _
    · rw [List.append_assoc]; exact hne _ rfl _

end

end Verif.Vhdl
