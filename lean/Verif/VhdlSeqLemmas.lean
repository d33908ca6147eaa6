import Verif.VhdlReadLemmas
import Verif.VhdlStmLemmas
/-!
# VHDL sequential statements: the parts of statements are parsed right
-/
namespace Verif.Vhdl
open P Verif.Spec Verif.Spec.Lrm

/-! ## The fragment of which the AST keeps the meaning -/

def LTarget.Ok : LTarget → Prop
  | .name n => LName.Ok n
  | .agg e l => LElem.Ok e ∧ elemsOk l
/-- One value without delay. -/
def LWave.Ok : LWave → Prop
  | .elems (e, Option.none) [] => LExpr.Ok e
  | _ => False
def optOk (o : Option LExpr) : Prop := ∀ e, o = some e → LExpr.Ok e
/-- No delay mechanism, no `force`, no `release`, no selected assignment, no conditional assignment of a variable. -/
def LAssign.Ok : LAssign → Prop
  | .wave t .none w => LTarget.Ok t ∧ LWave.Ok w
  | .waveCond t .none c => LTarget.Ok t ∧ (∀ p ∈ c.head :: c.tail, LWave.Ok p.1 ∧ LExpr.Ok p.2) ∧ ∀ w, c.dflt = some w → LWave.Ok w
  | .var t e => LTarget.Ok t ∧ LExpr.Ok e
  | _ => False
def LDiscr.Ok : LDiscr → Prop
  | .name n => LName.Ok n
  | .range a _ b => LSimple.Ok a ∧ LSimple.Ok b
  | .sub n a _ b => LName.Ok n ∧ LSimple.Ok a ∧ LSimple.Ok b
def LIter.Ok : LIter → Prop
  | .forever => True
  | .while_ c => LExpr.Ok c
  | .for_ _ d => LDiscr.Ok d

/-- A number with a unit. -/
def LExpr.isTime : LExpr → Prop
  | .one (.one (.one (.one (.one (.prim (.decUnit _ _)))))) => True
  | .one (.one (.one (.one (.one (.prim (.basedUnit _ _)))))) => True
  | _ => False

section
variable {V : Type} (A : Alg V)

structure MTg (t : Target) (x : LTarget) : Prop where
  ev : evTarget A t = x.eval A
  ok : LTarget.Ok x → okTarget t
structure MDl (t : Option Delay) (x : LDelay) : Prop where
  ev : ∀ {S : Type} (B : SAlg V S) (s : S), evDelay A B t s = x.eval A B s
  no : x = .none → t = none
structure MW (t : Waveform) (x : LWave) : Prop where
  ev : evWaveform A t = x.eval A
  ok : LWave.Ok x → okWave t
structure MCd {α β : Type} (Mx : α → β → Prop) (t : (α × Expression) × List (α × Expression) × Option α) (x : LCond β) : Prop where
  head : Mx t.1.1 x.head.1 ∧ ME A t.1.2 x.head.2
  tail : List.Forall₂ (fun a b => Mx a.1 b.1 ∧ ME A a.2 b.2) t.2.1 x.tail
  dflt : OM Mx t.2.2 x.dflt
/-- Choices. -/
abbrev MCs (t : List Choice) (x : LChoices) : Prop := List.Forall₂ (MC A) t x.list
abbrev MSl {α β : Type} (Mx : α → β → Prop) (t : List (α × List Choice)) (x : LSel β) : Prop :=
  List.Forall₂ (fun a b => Mx a.1 b.1 ∧ MCs A a.2 b.2) t (x.head :: x.tail)

end

section
variable {V : Type} {A : Alg V} {k M : Nat}

theorem OM.map {α β γ : Type} {Mx : α → β → Prop} {f : α → γ} {g : β → γ} (h : ∀ a b, Mx a b → f a = g b) {x : Option α} {y : Option β}
    (hx : OM Mx x y) : x.map f = y.map g := by
  cases x <;> cases y <;> first | rfl | exact hx.elim | exact congrArg Option.some (h _ _ hx)

theorem OM.ok {x : Option Expression} {y : Option LExpr} (h : OM (ME A) x y) (hy : optOk y) : okOpt x := by
  intro e he
  subst he
  cases y with
  | none => exact h.elim
  | some b => exact ME.ok h (hy b rfl)

theorem Nx.take {L : List VT} {R : List VTok} (h : Nx L R) {D : List VTok → Prop} (hD : ∀ t ∈ L, ∀ y s, y.ty = t → R = y :: s → D R) : D R := by
  obtain ⟨y, s, rfl, hy⟩ := h.cons
  exact hD _ hy y s rfl rfl

/-! ## Names and expressions -/

variable (g : Good A k) (hM : 3 * k + 2 < M)
include g hM

theorem expr_rd {e : LExpr} {w R : List VTok} (h : e.Toks w) (hk : w.length ≤ k) (hR : Nx afterExpr R) :
    ∃ t, ME A t e ∧ Rd Dp ((env M).expression 0) w R t := g.expr' h hk hM hR.endE

theorem name_rd {n : LName} {w R : List VTok} (h : n.Toks w) (hk : w.length ≤ k) {L : List VT} (hR : Nx L R) (hL : ∀ t ∈ L, partStart t = false) :
    ∃ t, MN A t n ∧ Rd None' ((env M).name) w R t := g.name' h hk (by omega) (hR.stuck hL)

/-- An expression behind a reserved word, if it is there. -/
theorem optE_rd {K : Kw} {o : Option LExpr} {w R : List VTok} (h : Opt' (After K LExpr.Toks) o w) (hk : w.length ≤ k) {L : List VT}
    (hR : Nx L R) (hL : ∀ t ∈ L, t ∈ afterExpr) (hK : VT.kw K ∉ L) :
    ∃ t, OM (ME A) t o ∧ Rd Dp (opt (tok (.kw K) >>= fun _ => (env M).expression 0)) w R t := by
  cases o with
  | none => cases h; exact ⟨none, trivial, Rd.none (bind_nil (hR.tok hK))⟩
  | some e =>
    obtain ⟨u, v, rfl, hu, hv⟩ := h
    rw [List.length_append] at hk
    obtain ⟨t, ht, f⟩ := expr_rd g hM hv (by omega) (hR.mono hL)
    exact ⟨some t, ht, Rd.some (Rd.tok hu f)⟩

/-! ## Targets, delays, waveforms -/

theorem target_rd {x : LTarget} {w R : List VTok} (h : x.Toks w) (hk : w.length ≤ k) {L : List VT} (hR : Nx L R) (hL : ∀ t ∈ L, partStart t = false) :
    ∃ t, MTg A t x ∧ Rd None' (target (env M)) w R t := by
  cases x with
  | name n =>
    obtain ⟨t, ht, f⟩ := name_rd g hM (n := n) h hk hR hL
    exact ⟨.name t, ⟨ht.ev, ht.ok⟩, Rd.orL (Rd.map (g := Target.name) f)⟩
  | agg e l =>
    obtain ⟨_, _, rfl, ⟨o, rfl, ho⟩, we, _, rfl, he, wl, _, rfl, hl, ⟨c, rfl, hc⟩⟩ := h
    simp only [List.length_append, List.length_cons, List.length_nil] at hk
    obtain ⟨ts, ht, f⟩ := aggregate_good g e l he hl (by simp; omega) hM ho hc R
    refine ⟨.agg ts, ⟨ht.ev, fun h => ht.ok h.1 h.2⟩, Rd.orN (bind_nil (name_no ?_)) (Rd.map (g := Target.agg) ?_)⟩
    · intro t ht
      cases ht; rw [ho]; rfl
    · unfold Rd
      rw [show [o] ++ (we ++ (wl ++ [c])) ++ R = o :: (we ++ (wl ++ c :: R)) from by simp]
      exact f

omit g hM in
theorem expr_no {R : List VTok} {L : List VT} (hR : Nx L R) (hL : ∀ t ∈ L, expStart t = false) {p : Nat} : (env M).expression p R = [] := by
  obtain ⟨y, s, rfl, hy⟩ := hR.cons
  refine List.eq_nil_iff_forall_not_mem.2 fun x hx => ?_
  obtain ⟨y', s', e, h'⟩ := expression_start hx
  cases e; rw [hL _ hy] at h'; cases h'

omit g hM in
theorem LExpr.nx {e : LExpr} {w R : List VTok} (h : e.Toks w) : ∃ t, next (w ++ R) = some t ∧ expStart t = true := by
  have hl := LExpr.lead e h
  obtain ⟨y, s, rfl, hy⟩ := hl.start
  exact ⟨_, rfl, hy⟩

omit g hM in
theorem delay_no {R : List VTok} (h1 : next R ≠ some (.kw .TRANSPORT)) (h2 : next R ≠ some (.kw .REJECT)) (h3 : next R ≠ some (.kw .INERTIAL)) :
    delayMechanism (env M) R = [] := by
  refine or_nil (bind_nil (tok_next h1)) ?_
  rw [bind_apply, opt_none (bind_nil (tok_next h2))]
  simp only [List.flatMap_cons, List.flatMap_nil, List.append_nil]
  exact bind_nil (tok_next h3)

theorem delay_rd {x : LDelay} {w R : List VTok} (h : x.Toks w) (hk : w.length ≤ k) (h1 : next R ≠ some (.kw .TRANSPORT))
    (h2 : next R ≠ some (.kw .REJECT)) (h3 : next R ≠ some (.kw .INERTIAL)) :
    ∃ t, MDl A t x ∧ Rd None' (opt (delayMechanism (env M))) w R t := by
  cases x with
  | none => cases h; exact ⟨none, ⟨fun _ _ => rfl, fun _ => rfl⟩, Rd.none (delay_no h1 h2 h3)⟩
  | transport => exact ⟨some .transport, ⟨fun _ _ => rfl, nofun⟩, Rd.some (Rd.orL (Rd.last h))⟩
  | inertial =>
    obtain ⟨y, rfl, hy⟩ := h
    refine ⟨some (.inertial none), ⟨fun _ _ => rfl, nofun⟩, Rd.some (Rd.orN (bind_nil (tok_neg (by rw [hy]; decide) R)) ?_)⟩
    have : Rd None' (do
      let r ← opt (tok (.kw .REJECT) >>= fun _ => (env M).expression 0)
      let _ ← tok (.kw .INERTIAL)
      return (.inertial r : Delay)) ([] ++ [y]) R (.inertial none) :=
      Rd.bindN (Rd.none (bind_nil (tok_neg (by rw [hy]; decide) R))) (Rd.last ⟨y, rfl, hy⟩)
    exact this
  | reject e =>
    obtain ⟨u, _, rfl, hu, v, z, rfl, hv, hz⟩ := h
    simp only [List.length_append] at hk
    obtain ⟨t, ht, f⟩ := expr_rd g hM (R := z ++ R) hv (by omega) (Nx.one hz (by decide))
    refine ⟨some (.inertial (some t)), ⟨fun B s => ?_, nofun⟩, Rd.some (Rd.orN ?_ ?_)⟩
    · simp only [evDelay, LDelay.eval, Option.map_some, ht.ev]
    · obtain ⟨y, rfl, hy⟩ := hu
      exact bind_nil (tok_neg (by rw [hy]; decide) _)
    · rw [← List.append_assoc]
      exact Rd.head (Rd.some (Rd.tok hu f)) (Rd.last hz) fun _ => Kill.tok rfl

theorem elem_rd {p : LExpr × Option LExpr} {w R : List VTok} (h : elemToks p w) (hk : w.length ≤ k) (hR : Nx [.COMMA, .kw .WHEN, .SEMI] R) :
    ∃ t : WaveElem, (ME A t.value p.1 ∧ OM (ME A) t.after p.2) ∧ Rd Dp (waveformElement (env M)) w R t := by
  obtain ⟨u, v, rfl, hu, hv⟩ := h
  rw [List.length_append] at hk
  obtain ⟨t1, h1, f1⟩ := expr_rd g hM (R := v ++ R) hu (by omega) (Nx.opt hv (hR.mono (by decide)) (by decide))
  obtain ⟨t2, h2, f2⟩ := optE_rd g hM hv (by omega) hR (by decide) (by decide)
  exact ⟨⟨t1, t2⟩, ⟨h1, h2⟩, Rd.orL (Rd.bind f1 (Rd.map (g := fun a => (⟨t1, a⟩ : WaveElem)) f2) fun c s hs x hx => keep_opt rfl hs x hx)⟩

omit g hM in
theorem wave_ev {h' : WaveElem} {t' : List WaveElem} {h : LExpr × Option LExpr} {t : List (LExpr × Option LExpr)}
    (hh : ME A h'.value h.1 ∧ OM (ME A) h'.after h.2) (ht : List.Forall₂ (fun (a : WaveElem) b => ME A a.value b.1 ∧ OM (ME A) a.after b.2) t' t) :
    MW A (.elems h' t') (.elems h t) := by
  obtain ⟨v', a'⟩ := h'
  obtain ⟨v, a⟩ := h
  have key : (⟨v', a'⟩ :: t').map (fun w : WaveElem => (evExpression A w.value, w.after.map (evExpression A))) =
      ((v, a) :: t).map fun p => (p.1.eval A, p.2.map (LExpr.eval A)) := by
    have h1 : ∀ {t' : List WaveElem} {t : List (LExpr × Option LExpr)}, List.Forall₂ (fun (a : WaveElem) b => ME A a.value b.1 ∧ OM (ME A) a.after b.2) t' t →
        t'.map (fun w : WaveElem => (evExpression A w.value, w.after.map (evExpression A))) = t.map fun p => (p.1.eval A, p.2.map (LExpr.eval A)) := by
      intro t' t h
      induction h with
      | nil => rfl
      | cons h _ ih => rw [List.map_cons, List.map_cons, ih, h.1.ev, OM.map (fun _ _ h => h.ev) h.2]
    exact h1 (.cons hh ht)
  refine ⟨?_, fun hok => ?_⟩
  · cases ht with
    | nil =>
      cases a' <;> cases a
      · simp only [evWaveform, LWave.eval, hh.1.ev]
      · exact hh.2.elim
      · exact hh.2.elim
      · simp only [evWaveform, LWave.eval, key]
    | cons => simp only [evWaveform, LWave.eval, key]
  · cases ht with
    | cons => simp [LWave.Ok] at hok
    | nil =>
      cases a with
      | some => simp [LWave.Ok] at hok
      | none =>
        cases a' with
        | some => exact hh.2.elim
        | none => exact ⟨v', rfl, hh.1.ok (by simpa [LWave.Ok] using hok)⟩

theorem waveform_rd {x : LWave} {w R : List VTok} (h : x.Toks w) (hk : w.length ≤ k) (hR : Nx [.kw .WHEN, .SEMI] R) :
    ∃ t, MW A t x ∧ Rd Dp (waveform (env M)) w R t := by
  cases x with
  | unaffected =>
    refine ⟨.unaffected, ⟨rfl, fun h => h.elim⟩, Rd.orN (bind_nil (bind_nil (or_nil ?_ ?_))) (Rd.last h)⟩
    · exact bind_nil (expr_no (Nx.one (L := [.kw .UNAFFECTED]) h (by decide)) (by decide))
    · exact bind_nil (Nx.tok (Nx.one (L := [.kw .UNAFFECTED]) h (by decide)) (by decide))
  | elems e l =>
    obtain ⟨u, v, rfl, hu, hv⟩ := h
    obtain ⟨a, as, ha, has, f⟩ := sepBy_firstD (p := waveformElement (env M)) (sep := .COMMA) (T := elemToks)
      (LT := Rep fun p => Cat (One .COMMA) (elemToks p)) (k := k) (D := Dp) (C := Nx [.kw .WHEN, .SEMI])
      (M := fun (a : WaveElem) b => ME A a.value b.1 ∧ OM (ME A) a.after b.2) (fun R hR => hR.not (by decide)) (fun s hs => hs.ne rfl) (fun w h => h)
      (by
        rintro b l w ⟨_, v, rfl, ⟨_, u, rfl, ⟨x, rfl, hx⟩, hu⟩, hv⟩
        exact ⟨x, u, v, by simp, hx, hu, hv⟩)
      (fun b u R hb hk hR => elem_rd g hM hb hk (by
        rcases hR with h | h
        · exact ⟨_, h, by decide⟩
        · exact h.mono (by decide)))
      e l u v hu hv hk R hR
    refine ⟨.elems a as, wave_ev ha has, Rd.orL (Rd.map (g := mkWaveform) (a := a :: as) ?_)⟩
    unfold Rd
    rw [List.append_assoc]
    exact f

/-! ## Conditional and selected values -/

omit g hM in
theorem dflt_dead {β γ : Type} {t : VT} {p : P β} {h : Option β → γ} (ht : partStart t = false) {s : List VTok} (hs : Dp s)
    {x : γ × List VTok}
    (hx : x ∈ (P.or (tok t >>= fun _ => p >>= fun w => pure (some w)) (notNext t >>= fun _ => pure none) >>= fun d => pure (h d)) s) : Dp x.2 := by
  obtain ⟨d, r, h1, h2⟩ := mem_bind.1 hx
  rw [mem_pure] at h2; subst h2
  rcases mem_or.1 h1 with h | h
  · rw [bind_nil (tok_next (hs.ne ht))] at h; cases h
  · obtain ⟨_, r', h3, h4⟩ := mem_bind.1 h
    rw [mem_pure] at h4; cases h4
    obtain ⟨y, s', rfl, hy⟩ := hs
    rw [notNext] at h3
    split at h3
    · cases h3
    · simp only [List.mem_singleton, Prod.mk.injEq] at h3
      rw [h3.2]; exact ⟨y, s', rfl, hy⟩

section
variable {α β : Type} {p : P α} {T : β → List VTok → Prop} {Mx : α → β → Prop}
  (good : ∀ b u R, T b u → u.length ≤ k → Nx [.kw .WHEN, .SEMI] R → ∃ a, Mx a b ∧ Rd Dp p u R a)
include good

theorem when_rd {b : β × LExpr} {w R : List VTok} (h : whenToks T b w) (hk : w.length ≤ k) (hR : Nx [.kw .ELSE, .SEMI] R) :
    ∃ t : α × Expression, (Mx t.1 b.1 ∧ ME A t.2 b.2) ∧ Rd Dp (do
      let w ← p
      let _ ← tok (.kw .WHEN)
      let c ← (env M).expression 0
      return (w, c)) w R t := by
  obtain ⟨u, _, rfl, hu, v, z, rfl, hv, hz⟩ := h
  simp only [List.length_append] at hk
  obtain ⟨t1, h1, f1⟩ := good b.1 u (v ++ z ++ R) hu (by omega) (Nx.cat hv (by decide))
  obtain ⟨t2, h2, f2⟩ := expr_rd g hM hz (by omega) (hR.mono (by decide))
  exact ⟨(t1, t2), ⟨h1, h2⟩, Rd.head f1 (Rd.tok hv (Rd.map (g := fun c => (t1, c)) f2)) fun _ => Kill.tok rfl⟩

theorem conditional_rd (hp : Snd (FlatR S4) p) (hT : ∀ b u, T b u → Flat S4 u) {c : LCond β} {w R : List VTok} (h : c.Toks T w)
    (hk : w.length ≤ k) (hR : Nx [.SEMI] R) : ∃ t, MCd A Mx t c ∧ Rd Dp (conditional (env M) p) w R t := by
  obtain ⟨u, _, rfl, hu, v, z, rfl, hv, hz⟩ := h
  simp only [List.length_append] at hk
  -- the default
  obtain ⟨td, hd, fd⟩ : ∃ t, OM Mx t c.dflt ∧ Rd Dp (P.or (tok (.kw .ELSE) >>= fun _ => p >>= fun w => pure (some w))
      (notNext (.kw .ELSE) >>= fun _ => pure none)) z R t := by
    cases hc : c.dflt with
    | none =>
      rw [hc] at hz; cases hz
      refine ⟨none, trivial, Rd.orN (bind_nil (hR.tok (by decide))) ?_⟩
      obtain ⟨y, s, rfl, hy⟩ := hR.cons
      refine First.of_eq ?_
      have hne : y.ty ≠ .kw .ELSE := by simp only [List.mem_singleton] at hy; rw [hy]; decide
      rw [List.nil_append, bind_apply, notNext, if_neg hne]
      rfl
    | some b =>
      rw [hc] at hz
      obtain ⟨e, x, rfl, he, hx⟩ := hz
      simp only [List.length_append] at hk
      obtain ⟨t, ht, f⟩ := good b x R hx (by omega) (hR.mono (by decide))
      exact ⟨some t, ht, Rd.orL (Rd.tok he (Rd.map (g := some) f))⟩
  -- the loop ends there
  have hend : (tok (.kw .ELSE) >>= fun _ => p >>= fun w => tok (.kw .WHEN) >>= fun _ => (env M).expression 0 >>= fun c => pure (w, c)) (z ++ R) = [] ∧
      Nx [.kw .ELSE, .SEMI] (z ++ R) := by
    cases hc : c.dflt with
    | none =>
      rw [hc] at hz; cases hz
      exact ⟨bind_nil (hR.tok (by decide)), hR.mono (by decide)⟩
    | some b =>
      rw [hc] at hz
      obtain ⟨e, x, rfl, he, hx⟩ := hz
      refine ⟨?_, Nx.cat he (by decide)⟩
      obtain ⟨y, rfl, hy⟩ := he
      rw [List.append_assoc, List.singleton_append, bind_apply, tok_pos hy]
      simp only [List.flatMap_cons, List.flatMap_nil, List.append_nil]
      exact flat_no seps_S4 hp (hT b x hx) hR (by decide) rfl (by decide)
  obtain ⟨tl, hl, fl⟩ := many_rd (p := tok (.kw .ELSE) >>= fun _ => p >>= fun w => tok (.kw .WHEN) >>= fun _ => (env M).expression 0 >>= fun c => pure (w, c))
    (T := After .ELSE (whenToks T)) (LT := Rep (After .ELSE (whenToks T))) (k := k) (D := Dp)
    (C := fun R => (tok (.kw .ELSE) >>= fun _ => p >>= fun w => tok (.kw .WHEN) >>= fun _ => (env M).expression 0 >>= fun c => pure (w, c)) R = [] ∧
      Nx [.kw .ELSE, .SEMI] R) (Q := Nx [.kw .ELSE, .SEMI]) (M := fun (a : α × Expression) b => Mx a.1 b.1 ∧ ME A a.2 b.2)
    (Kill.tok rfl) (fun R h => h.1) (fun R h => h.2) (fun w h => h) (fun b l w h => h)
    (by rintro b u R ⟨e, x, rfl, he, -⟩; exact Nx.cat he (by decide))
    (by rintro b u ⟨e, x, rfl, ⟨y, rfl, -⟩, -⟩; simp)
    (by
      rintro b u R ⟨e, x, rfl, he, hx⟩ hk hR
      rw [List.length_append] at hk
      obtain ⟨t, ht, f⟩ := when_rd g hM good hx (by omega) hR
      exact ⟨t, ht, Rd.tok he f⟩)
    c.tail v hv (by omega) (z ++ R) hend
  obtain ⟨u, _, rfl, hu, v', z', rfl, hv', hz'⟩ := hu
  simp only [List.length_append] at hk
  have hn : Nx [.kw .ELSE, .SEMI] ((v ++ z) ++ R) := by
    rw [List.append_assoc]
    cases hc : c.tail with
    | nil => rw [hc] at hv; rw [hv]; exact hend.2
    | cons b l =>
      rw [hc] at hv
      obtain ⟨_, _, rfl, ⟨e, x, rfl, he, -⟩, -⟩ := hv
      rw [List.append_assoc]
      exact Nx.cat he (by decide)
  obtain ⟨t1, h1, f1⟩ := good c.head.1 u ((v' ++ z' ++ (v ++ z)) ++ R) hu (by omega) (by rw [List.append_assoc]; exact Nx.cat hv' (by decide))
  obtain ⟨t2, h2, f2⟩ := expr_rd g hM hz' (by omega) (hn.mono (by decide))
  refine ⟨((t1, t2), tl, td), ⟨⟨h1, h2⟩, hl, hd⟩, ?_⟩
  rw [List.append_assoc]
  refine Rd.head f1 ?_ fun _ => Kill.tok rfl
  rw [List.append_assoc]
  refine Rd.tok hv' (Rd.bind f2 ?_ ?_)
  · refine Rd.bind fl (Rd.map (g := fun d => ((t1, t2), tl, d)) fd) ?_
    intro l s hs x hx
    exact dflt_dead rfl hs hx
  · intro c s hs x hx
    rw [bind_apply, many_nil (bind_nil (tok_next (hs.ne rfl)))] at hx
    simp only [List.flatMap_cons, List.flatMap_nil, List.append_nil] at hx
    exact dflt_dead rfl hs hx

/-! ### Choices -/

omit good in
theorem choices_rd {c : LChoices} {w R : List VTok} (h : c.Toks w) (hk : w.length ≤ k) (hR : Nx [.ARROW, .COMMA, .SEMI] R) :
    ∃ t, MCs A t c ∧ Rd Dch (choices (env M)) w R t := by
  obtain ⟨u, v, rfl, hu, hv⟩ := h
  obtain ⟨a, as, ha, has, f⟩ := sepBy_firstD (p := choice (env M)) (sep := .BAR) (T := LChoice.Toks) (LT := choicesToks) (k := k) (D := Dch)
    (C := Nx [.ARROW, .COMMA, .SEMI]) (M := MC A) (fun R hR => hR.not (by decide)) (fun s hs => hs _ (by decide))
    (fun w h => by simpa only [choicesToks] using h)
    (by
      intro b l w h
      simp only [choicesToks] at h
      obtain ⟨_, _, rfl, ⟨x, rfl, hx⟩, u, v, rfl, hu, hv⟩ := h
      exact ⟨x, u, v, by simp, hx, hu, hv⟩)
    (fun b u R hb hk hR => by
      have hR' : Nx chEnd R := by
        rcases hR with h | h
        · exact ⟨_, h, by decide⟩
        · exact h.mono (by decide)
      obtain ⟨y, s, rfl, hy⟩ := hR'.cons
      exact choice_goodD g b hb hk (by omega) hy s)
    c.head c.tail u v hu hv hk R hR
  refine ⟨a :: as, .cons ha has, ?_⟩
  unfold Rd
  rw [List.append_assoc]
  exact f

omit g hM good in
theorem dch_tok {s : List VTok} (h : Dch s) {t : VT} (ht : t ∈ chEnd) : tok t s = [] := tok_next (h t ht)

theorem selected_rd {c : LSel β} {w R : List VTok} (h : c.Toks T w) (hk : w.length ≤ k) (hR : Nx [.SEMI] R) :
    ∃ t, MSl A Mx t c ∧ Rd Dch (selected (env M) p) w R t := by
  obtain ⟨u, v, rfl, hu, hv⟩ := h
  obtain ⟨a, as, ha, has, f⟩ := sepBy_firstD (p := do
      let w ← p
      let _ ← tok (.kw .WHEN)
      let c ← choices (env M)
      return (w, c)) (sep := .COMMA) (T := selToks T) (LT := Rep fun p => Cat (One .COMMA) (selToks T p)) (k := k) (D := Dch)
    (C := Nx [.SEMI]) (M := fun (a : α × List Choice) (b : β × LChoices) => Mx a.1 b.1 ∧ MCs A a.2 b.2) (fun R hR => hR.not (by decide)) (fun s hs => hs _ (by decide))
    (fun w h => h)
    (by
      rintro b l w ⟨_, v, rfl, ⟨_, u, rfl, ⟨x, rfl, hx⟩, hu⟩, hv⟩
      exact ⟨x, u, v, by simp, hx, hu, hv⟩)
    (by
      rintro b u R ⟨u, _, rfl, hu, v, z, rfl, hv, hz⟩ hk hR
      simp only [List.length_append] at hk
      obtain ⟨t1, h1, f1⟩ := good b.1 u (v ++ z ++ R) hu (by omega) (Nx.cat hv (by decide))
      obtain ⟨t2, h2, f2⟩ := choices_rd g hM hz (by omega) (R := R) (by
        rcases hR with h | h
        · exact ⟨_, h, by decide⟩
        · exact h.mono (by decide))
      exact ⟨(t1, t2), ⟨h1, h2⟩, Rd.head f1 (Rd.tok hv (Rd.map (g := fun c => (t1, c)) f2)) fun _ => Kill.tok rfl⟩)
    c.head c.tail u v hu hv hk R hR
  refine ⟨a :: as, .cons ha has, ?_⟩
  unfold Rd
  rw [List.append_assoc]
  exact f

end

end

end Verif.Vhdl
