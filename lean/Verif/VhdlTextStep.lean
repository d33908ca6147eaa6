import Verif.VhdlTextMain
/-!
# The parse of a VHDL expression: the induction step
-/
namespace Verif.Vhdl
open P Verif.Spec Verif.Spec.Lrm

theorem Lift.extendH {α : Type} {D : List VTok → Prop} {step : α → P α} {rule : P α} {u v R : List VTok} {t t' : α}
    (h : Lift D step rule u (v ++ R) t) (hv : v ≠ []) (hs : First None' (step t) (v ++ R) t' R) : Lift D step rule (u ++ v) R t' := by
  intro x r hx
  rw [List.append_assoc]
  refine h x r fun m hm => ?_
  have hl := List.length_pos_iff.2 hv
  rw [List.length_append] at hm
  obtain ⟨m, rfl⟩ : ∃ m', m = m' + 1 := ⟨m - 1, by omega⟩
  exact First.orL (First.bindH hs (hx m (by omega)))

theorem Lift.extend {α : Type} {D : List VTok → Prop} {step : α → P α} {rule : P α} {u v R : List VTok} {t t' : α}
    (h : Lift D step rule u (v ++ R) t) (hv : v ≠ []) (hs : First D (step t) (v ++ R) t' R)
    (hd : ∀ m a s, D s → ∀ x ∈ loopN step m a s, D x.2) : Lift D step rule (u ++ v) R t' := by
  intro x r hx
  rw [List.append_assoc]
  refine h x r fun m hm => ?_
  have hl := List.length_pos_iff.2 hv
  rw [List.length_append] at hm
  obtain ⟨m, rfl⟩ : ∃ m', m = m' + 1 := ⟨m - 1, by omega⟩
  exact First.step hs (hx m (by omega)) fun a s h => hd m a s h

theorem First.of_all {α : Type} {p : P α} {ts r : List VTok} {a : α} (h0 : (a, r) ∈ p ts) (h : ∀ x ∈ p ts, x = (a, r)) :
    First None' p ts a r := by
  cases e : p ts with
  | nil => rw [e] at h0; cases h0
  | cons x l =>
    rw [e] at h
    have := h x (List.mem_cons_self ..)
    subst this
    exact ⟨[], l, e, by simp⟩

theorem nameLit_pos {l : NameLit} {y : VTok} (h : NameLit.Tok l y) (R : List VTok) : nameLit (y :: R) = [(l, R)] := by
  cases l with
  | ident s =>
    obtain ⟨h | h, rfl⟩ := h <;>
      simp [nameLit, identifier, alts, or_apply, bind_apply, pure_apply, tok_cons, h]
  | opSymbol s =>
    obtain ⟨h, rfl⟩ := h
    simp [nameLit, identifier, alts, or_apply, bind_apply, pure_apply, tok_cons, h]
  | chr s =>
    obtain ⟨h, rfl⟩ := h
    simp [nameLit, identifier, alts, or_apply, bind_apply, pure_apply, tok_cons, h]

theorem suffix_pos {l : Suffix} {y : VTok} (h : Suffix.Tok l y) (R : List VTok) : suffix (y :: R) = [(l, R)] := by
  cases l with
  | lit l =>
    have hn : y.ty ≠ .kw .ALL := by
      intro e; have := (nameLit_tok_start h).1; rw [e] at this; cases this
    rw [suffix, or_apply, bind_apply, nameLit_pos h, bind_nil (tok_neg hn R)]
    rfl
  | all =>
    have hy : y.ty = .kw .ALL := h
    have hl : nameLit (y :: R) = [] := by
      apply List.eq_nil_iff_forall_not_mem.2
      intro x hx
      obtain ⟨y', e, h1, -⟩ := mem_nameLit hx
      cases e; rw [hy] at h1; cases h1
    rw [suffix, or_apply, bind_nil hl, bind_apply, tok_pos hy]
    rfl

theorem kw_all (k : Kw) : k ∈ Kw.all := by cases k <;> decide

theorem attr_first {d : Str} {y : VTok} (h : attrTok d y) (R : List VTok) : First None' attributeDesignator (y :: R) d R := by
  obtain ⟨h, rfl⟩ := h
  refine First.of_all ?_ fun x hx => ?_
  · rcases h with h | h | ⟨k, h⟩
    · exact mem_or.2 (.inl (mem_or.2 (.inl (by rw [tok_pos h]; simp))))
    · exact mem_or.2 (.inl (mem_or.2 (.inr (by rw [tok_pos h]; simp))))
    · exact mem_or.2 (.inr (mem_alts.2 ⟨_, List.mem_map.2 ⟨k, kw_all k, rfl⟩, by rw [tok_pos h]; simp⟩))
  · obtain ⟨y', e, -, h2⟩ := mem_attributeDesignator hx
    cases e
    obtain ⟨a, b⟩ := x
    simp only at h2 ⊢
    rw [h2]

/-- No direction follows. -/
theorem explicit_no {M : Nat} {v s : List VTok} {y : VTok} (hv : Flat S2 v) (hs : isClose y.ty = true ∨ S2 y.ty = true) (h1 : y.ty ≠ .kw .TO)
    (h2 : y.ty ≠ .kw .DOWNTO) (h3 : y.ty ≠ .kw .NEW) : explicitRange (env M) (v ++ y :: s) = [] := by
  apply List.eq_nil_iff_forall_not_mem.2
  intro x hx
  obtain ⟨a, r1, g1, g2⟩ := mem_bind.1 hx
  obtain ⟨d, r2, g3, -⟩ := mem_bind.1 g2
  obtain ⟨z, t, e1, hz, hm⟩ : ∃ z t, r1 = z :: t ∧ (z.ty = .kw .TO ∨ z.ty = .kw .DOWNTO) ∧ True := by
    cases r1 with
    | nil => rw [direction, toks_nil] at g3; cases g3
    | cons z t =>
      refine ⟨z, t, rfl, ?_, trivial⟩
      by_cases e1 : z.ty = .kw .TO
      · exact .inl e1
      · by_cases e2 : z.ty = .kw .DOWNTO
        · exact .inr e2
        · rw [direction, toks_neg (by intro a; simp [e1, e2])] at g3; cases g3
  subst e1
  have hst : Stops S2 (y :: s) := ⟨y, s, rfl, hs⟩
  rcases ((sound_env M).simple 0 _ _ g1).2 with ⟨u, e1, hu⟩ | ⟨t', s', ⟨u, e1, hu⟩, ht⟩
  · have := (hv.unique seps_S2 hu hst ⟨z, t, rfl, .inr (by rcases hz with h | h <;> rw [h] <;> rfl)⟩ e1).2
    have := (List.cons.inj this).1
    subst this
    rcases hz with h | h
    · exact h1 h
    · exact h2 h
  · have := (hv.unique seps_S2 hu hst ⟨t', s', rfl, .inr (by rw [ht]; rfl)⟩ e1).2
    have := (List.cons.inj this).1
    subst this
    exact h3 ht

theorem attrPart_no {E : Env} {y : VTok} {s : List VTok} (h1 : y.ty ≠ .LSQUARE_BR) (h2 : y.ty ≠ .APOSTROPHE) : nameAttributePart E (y :: s) = [] := by
  have e : signature E (y :: s) = [] := bind_nil (tok_neg h1 s)
  rw [nameAttributePart, bind_apply, opt_none e]
  simp only [List.flatMap_cons, List.flatMap_nil, List.append_nil]
  exact bind_nil (tok_neg h2 s)

section
variable {V : Type} {A : Alg V}

theorem assocs_ev {ts : List Assoc} {l : List LArg} (h : List.Forall₂ (MArg A) ts l) :
    evAssocs A ts = argsEval A l ∧ (argsOk l → okAssocs ts) := by
  induction h with
  | nil => exact ⟨by simp only [evAssocs, argsEval], fun _ => trivial⟩
  | cons h _ ih =>
    refine ⟨by simp only [evAssocs, argsEval, h.ev, ih.1], fun hk => ?_⟩
    simp only [argsOk] at hk
    exact ⟨h.ok hk.1, ih.2 hk.2⟩

theorem choices_ev {ts : List Choice} {l : List LChoice} (h : List.Forall₂ (MC A) ts l) : evChoices A ts = choicesEval A l := by
  induction h with
  | nil => simp only [evChoices, choicesEval]
  | cons h _ ih => simp only [evChoices, choicesEval, h.ev, ih]

theorem elems_ev {ts : List Elem} {l : List LElem} (h : List.Forall₂ (ML A) ts l) :
    evElems A ts = elemsEval A l ∧ (elemsOk l → okElems ts) := by
  induction h with
  | nil => exact ⟨by simp only [evElems, elemsEval], fun _ => trivial⟩
  | cons h _ ih =>
    refine ⟨by simp only [evElems, elemsEval, h.ev, ih.1], fun hk => ?_⟩
    simp only [elemsOk] at hk
    exact ⟨h.ok hk.1, ih.2 hk.2⟩

variable (hA : ∀ f l, A.call f l = A.index f l)

/-- A text `( … )` as the next part of a name. -/
theorem slicePart_no {M : Nat} {a : LArg} {wa s : List VTok} {o y : VTok} (ha : a.Toks wa) (hy : y.ty = .COMMA ∨ y.ty = .RPAREN) :
    nameSlicePart (env M) (o :: (wa ++ y :: s)) = [] := by
  by_cases ho : o.ty = .LPAREN
  · have key : explicitRange (env M) (wa ++ y :: s) = [] := by
      cases a with
      | pos e =>
        simp only [LArg.Toks] at ha
        refine explicit_no (LExpr.flat e wa ha) ?_ ?_ ?_ ?_ <;> rcases hy with h | h <;> rw [h] <;> decide
      | opn =>
        simp only [LArg.Toks] at ha
        obtain ⟨z, rfl, hz⟩ := ha
        exact bind_nil (open_no (.inl hz) _).2.2.2
      | named f e =>
        simp only [LArg.Toks] at ha
        obtain ⟨wf, _, rfl, hf, _, we, rfl, ⟨z, rfl, hz⟩, he⟩ := ha
        rw [List.append_assoc]
        refine explicit_no (LName.flat f wf hf) ?_ ?_ ?_ ?_ <;> rw [hz] <;> decide
    rw [nameSlicePart, bind_apply, tok_pos ho]
    simp only [List.flatMap_cons, List.flatMap_nil, List.append_nil]
    exact bind_nil key
  · exact bind_nil (tok_neg ho _)

include hA in
theorem name_step {k : Nat} (g : Good A k) : ∀ (n : LName) (w : List VTok), n.Toks w → w.length ≤ k + 1 → ∀ M, 3 * (k + 1) ≤ M → ∀ R,
    ∃ t, MN A t n ∧ ∀ D, Lift D (namePart (env M)) ((env (M + 1)).name) w R t
  | .lit l, w, h, hk, M, hM, R => by
    simp only [LName.Toks] at h
    obtain ⟨y, rfl, hy⟩ := h
    refine ⟨.lit l, ⟨by simp only [evName, LName.eval], fun h => h, by simp only [evCalls, evName, LName.calls, LName.eval], rfl, rfl⟩, fun D x r hx => ?_⟩
    have f1 : First None' (P.or (nameLit >>= fun l => pure (.lit l)) (externalName (env M))) (y :: R) (.lit l) R :=
      First.orL (First.map (f := Name.lit) (First.of_eq (nameLit_pos hy R)))
    exact First.bindH f1 (hx R.length (Nat.le_refl _))
  | .sel n s, w, h, hk, M, hM, R => by
    simp only [LName.Toks] at h
    obtain ⟨u, _, rfl, hu, _, _, rfl, ⟨a, rfl, ha⟩, z, rfl, hz⟩ := h
    simp only [List.length_append, List.length_cons, List.length_nil] at hk
    obtain ⟨t, ht, hl⟩ := name_step g n u hu (by omega) M hM ([a] ++ [z] ++ R)
    refine ⟨.dot t s, ⟨by simp only [evName, LName.eval, ht.ev], fun h => ?_, by simp only [evCalls, evName, LName.calls, LName.eval, ht.ev], rfl, rfl⟩, fun D => (hl D).extendH (by simp) ?_⟩
    · simp only [LName.Ok] at h
      exact ⟨ht.ok h.1, h.2⟩
    · have n1 : nameSlicePart (env M) (a :: z :: R) = [] := bind_nil (tok_neg (by rw [ha]; decide) _)
      have n2 : nameAttributePart (env M) (a :: z :: R) = [] := attrPart_no (by rw [ha]; decide) (by rw [ha]; decide)
      have n3 : associationList (env M) (a :: z :: R) = [] := bind_nil (tok_neg (by rw [ha]; decide) _)
      refine First.orN (bind_nil n1) (First.orN (bind_nil n2) (First.orN (bind_nil n3) ?_))
      exact First.bindH (First.tok ha _) (First.map (f := Name.dot t) (First.of_eq (suffix_pos hz R)))
  | .attr n s, w, h, hk, M, hM, R => by
    simp only [LName.Toks] at h
    obtain ⟨u, _, rfl, hu, _, _, rfl, ⟨a, rfl, ha⟩, z, rfl, hz⟩ := h
    simp only [List.length_append, List.length_cons, List.length_nil] at hk
    obtain ⟨t, ht, hl⟩ := name_step g n u hu (by omega) M hM ([a] ++ [z] ++ R)
    refine ⟨.attr t false s, ⟨by simp only [evName, LName.eval, ht.ev], fun h => ?_, by simp only [evCalls, evName, LName.calls, LName.eval, ht.ev], rfl, rfl⟩, fun D => (hl D).extendH (by simp) ?_⟩
    · simp only [LName.Ok] at h
      exact ⟨ht.ok h, rfl⟩
    · have n1 : nameSlicePart (env M) (a :: z :: R) = [] := bind_nil (tok_neg (by rw [ha]; decide) _)
      have f : First None' (nameAttributePart (env M)) (a :: z :: R) (false, s) R :=
        First.bindH (First.noneE (bind_nil (tok_neg (by rw [ha]; decide) _)))
          (First.bindH (First.tok ha _) (First.map (f := fun d => (false, d)) (attr_first hz R)))
      exact First.orN (bind_nil n1) (First.orL (First.map (f := fun x : Bool × Str => Name.attr t x.1 x.2) f))
  | .call n a l, w, h, hk, M, hM, R => by
    simp only [LName.Toks] at h
    obtain ⟨u, _, rfl, hu, _, _, rfl, ⟨o, rfl, ho⟩, wa, _, rfl, ha, wl, _, rfl, hl, c, rfl, hc⟩ := h
    simp only [List.length_append, List.length_cons, List.length_nil] at hk
    obtain ⟨t, ht, hl'⟩ := name_step g n u hu (by omega) M hM ([o] ++ (wa ++ (wl ++ [c])) ++ R)
    obtain ⟨ta, tl, hta, htl, f⟩ := args_first hA g a l ha hl (by rw [List.length_append]; omega) (M := M) (by omega) (R := c :: R)
      (by rw [next_cons, hc])
    obtain ⟨h1, h2⟩ := assocs_ev htl
    refine ⟨.assoc t (ta :: tl), ⟨?_, fun h => ?_, by simp only [evCalls, LName.calls, ht.ev, evAssocs, h1, hta.ev], rfl, ht.lit⟩, fun D => (hl' D).extendH (by simp) ?_⟩
    · simp only [evName, LName.eval, ht.ev, evAssocs, h1, hta.ev]
    · simp only [LName.Ok] at h
      exact ⟨ht.ok h.1, hta.ok h.2.1, h2 h.2.2⟩
    · have e1 : [o] ++ (wa ++ (wl ++ [c])) ++ R = o :: (wa ++ (wl ++ c :: R)) := by simp
      rw [e1]
      have n1 : nameSlicePart (env M) (o :: (wa ++ (wl ++ c :: R))) = [] := by
        cases l with
        | nil => simp only [argsToks] at hl; subst hl; exact slicePart_no ha (.inr hc)
        | cons b l =>
          simp only [argsToks] at hl
          obtain ⟨_, v, rfl, ⟨z, rfl, hz⟩, -⟩ := hl
          exact slicePart_no ha (.inl hz)
      have n2 : nameAttributePart (env M) (o :: (wa ++ (wl ++ c :: R))) = [] := attrPart_no (by rw [ho]; decide) (by rw [ho]; decide)
      refine First.orN (bind_nil n1) (First.orN (bind_nil n2) (First.orL (First.map (f := Name.assoc t) ?_)))
      refine First.bindH (First.tok ho _) (f.head (First.map (f := fun _ => ta :: tl) (First.tok hc R)) fun _ s hs => ?_)
      exact bind_nil (tok_next hs.2)
  | .slice n a b e, w, h, hk, M, hM, R => by
    simp only [LName.Toks] at h
    obtain ⟨u, _, rfl, hu, _, _, rfl, ⟨o, rfl, ho⟩, wa, _, rfl, ha, _, _, rfl, ⟨z, rfl, hz⟩, wb, _, rfl, hb, c, rfl, hc⟩ := h
    simp only [List.length_append, List.length_cons, List.length_nil] at hk
    obtain ⟨t, ht, hl'⟩ := name_step g n u hu (by omega) M hM ([o] ++ (wa ++ ([z] ++ (wb ++ [c]))) ++ R)
    obtain ⟨ta, hta, fa⟩ := g.simple' ha (by omega) (M := M) (by omega) (dir_closes hz (wb ++ c :: R)).endE.toEndS
    obtain ⟨tb, htb, fb⟩ := g.simple' hb (by omega) (M := M) (by omega) (ArgEnd.of_paren hc R).closes.endE.toEndS
    refine ⟨.slice t (.mk ta b tb), ⟨?_, fun h => ?_,
      by cases b <;> simp only [evCalls, LName.calls, evERange, ht.ev, hta.ev, htb.ev, dirSym], rfl, ht.lit⟩, fun D => (hl' D).extendH (by simp) ?_⟩
    · cases b <;> simp only [evName, evERange, LName.eval, ht.ev, hta.ev, htb.ev, dirSym]
    · simp only [LName.Ok] at h
      exact ⟨ht.ok h.1, hta.ok h.2.1, htb.ok h.2.2⟩
    · have e1 : [o] ++ (wa ++ ([z] ++ (wb ++ [c]))) ++ R = o :: (wa ++ z :: (wb ++ c :: R)) := by simp
      rw [e1]
      have hdp : ∀ s, Dp s → direction s = [] := by
        rintro s ⟨y, s', rfl, hy⟩
        refine toks_neg (fun a => ?_) _
        intro hm
        simp only [List.mem_cons, Prod.mk.injEq, List.not_mem_nil, or_false] at hm
        rcases hm with ⟨h, -⟩ | ⟨h, -⟩ <;> rw [h] at hy <;> cases hy
      have fe : First Dp (explicitRange (env M)) (wa ++ z :: (wb ++ c :: R)) (.mk ta b tb) (c :: R) := by
        refine fa.head (First.bindH (First.of_eq (dir_pos hz _)) (First.map (f := ERange.mk ta b) fb)) fun _ s hs => ?_
        exact bind_nil (hdp s hs)
      refine First.orL (First.map (f := Name.slice t) ?_)
      refine First.bindH (First.tok ho _) (fe.head (First.map (f := fun _ => ERange.mk ta b tb) (First.tok hc R)) fun _ s hs => ?_)
      exact bind_nil (paren_kill hs)

/-! ## Choices, elements, aggregates -/

/-- Tokens behind a choice. -/
def chEnd : List VT := [.BAR, .ARROW, .COMMA, .SEMI]
/-- Not behind a choice. -/
def Dch (s : List VTok) : Prop := ∀ t ∈ chEnd, next s ≠ some t

theorem Mid.deC {r : List VTok} (h : Mid r) : Dch r := by
  obtain ⟨y, s, rfl, hy⟩ := h
  intro t ht hn
  simp only [next_cons, Option.some.injEq] at hn
  subst hn
  simp only [chEnd, List.mem_cons, List.not_mem_nil, or_false] at ht
  rcases ht with h | h | h | h <;> rw [h] at hy <;> rcases hy with hy | hy <;> cases hy

/-- Behind a choice. -/
theorem choice_closes {y : VTok} (h : y.ty ∈ chEnd) (s : List VTok) : Closes (y :: s) := by
  simp only [chEnd, List.mem_cons, List.not_mem_nil, or_false] at h
  rcases h with h | h | h | h <;> exact ⟨y, s, rfl, by rw [h]; rfl, by rw [h]; rfl, by rw [h]; rfl, by rw [h]; decide⟩

/-- A bare name as subtype. -/
theorem subInd_name {k : Nat} (g : Good A k) {n : LName} {w : List VTok} (h : n.Toks w) (hk : w.length ≤ k) {M : Nat}
    (hM : 3 * k + 1 < M) {R : List VTok} (hR : Closes R) :
    ∃ t, MN A t n ∧ First None' ((env M).subInd) (w ++ R) (.mk .none t .none) R := by
  obtain ⟨M, rfl⟩ : ∃ m, M = m + 1 := ⟨M - 1, by omega⟩
  obtain ⟨t, ht, f⟩ := g.name' h hk (M := M) (by omega) hR.stuck
  refine ⟨t, ht, ?_⟩
  obtain ⟨y0, s0, e0, h0⟩ := LName.start h
  have f1 : First (fun s => ∀ z, ¬ NameTo s z) (opt (resolution (env M))) (w ++ R) none (w ++ R) := by
    refine First.none fun x hx z hz => ?_
    rcases mem_or.1 hx with hx | hx
    · obtain ⟨m, r, h1, h2⟩ := mem_bind.1 hx
      rw [mem_pure] at h2; subst h2
      rcases (Lead.bare h).name hR ((ends_env M).name _ _ h1) with h | ⟨h, -⟩
      · exact h.noName hz
      · rw [h] at hz; exact hR.noName hz
    · obtain ⟨m, r, h1, h2⟩ := mem_bind.1 hx
      obtain ⟨m', r', h3, h4⟩ := mem_bind.1 h1
      rw [e0, List.cons_append, tok_neg (by intro e; rw [e] at h0; cases h0)] at h3
      cases h3
  have f2 : First None' (opt (constraint (env M))) R none R := by
    obtain ⟨y, s, rfl, h1, h2, h3, h4⟩ := hR
    have hp : y.ty ≠ .LPAREN := by intro e; rw [e] at h2; cases h2
    refine First.noneE (or_nil (bind_nil (tok_neg h4 s)) (bind_nil ?_))
    exact or_nil (bind_nil (or_nil (bind_nil (tok_neg hp s)) (bind_nil (tok_neg hp s)))) (bind_nil (bind_nil (tok_neg hp s)))
  refine f1.head (f.bindH (First.map (f := fun c : Option Constr => SubInd.mk .none t (c.getD .none)) f2)) fun c s hs => ?_
  refine bind_nil (List.eq_nil_iff_forall_not_mem.2 fun x hx => hs _ ((ends_env M).name _ _ hx))

theorem bareS_toks {e : LSimple} {n : LName} (h : LSimple.bare e = some n) : e = .one (.one (.prim (.name n))) := by
  cases e with
  | signed | add => cases h
  | one e => cases e with
    | mul => cases h
    | one e => cases e with
      | pow | abs | not | red => cases h
      | prim e => cases e with
        | name m => cases h; rfl
        | _ => cases h

theorem choice_goodD {k : Nat} (g : Good A k) (c : LChoice) {w : List VTok} (h : c.Toks w) (hk : w.length ≤ k) {M : Nat}
    (hM : 3 * k + 1 < M) {y : VTok} (hy : y.ty ∈ chEnd) (s : List VTok) :
    ∃ t, MC A t c ∧ First Dch (choice (env M)) (w ++ y :: s) t (y :: s) := by
  have hcl := choice_closes hy s
  cases c with
  | expr e =>
    simp only [LChoice.Toks] at h
    cases hb : LSimple.bare e with
    | some n =>
      have e0 := bareS_toks hb
      subst e0
      have hn : n.Toks w := by simpa only [LSimple.Toks, LTerm.Toks, LFactor.Toks, LPrim.Toks] using h
      obtain ⟨t, ht, f⟩ := subInd_name g hn hk hM hcl
      refine ⟨.discr (.sub (.mk .none t .none)), ⟨?_, fun h => ?_, rfl⟩, ?_⟩
      · simp only [evChoice, evDiscr, evSubInd, evConstr, LChoice.eval, LSimple.eval, LTerm.eval, LFactor.eval, LPrim.eval, ht.ev]
      · simp only [LChoice.Ok, LSimple.Ok, LTerm.Ok, LFactor.Ok, LPrim.Ok] at h
        exact ⟨trivial, ht.ok h, trivial⟩
      · exact First.orL (First.map (f := Choice.discr) (First.orL (First.map (f := Discr.sub) f.weak)))
    | none =>
      obtain ⟨t, ht, f⟩ := g.simple' h hk hM hcl.endE.toEndS
      refine ⟨.simple t, ⟨by simp only [evChoice, LChoice.eval, ht.ev], fun h => ht.ok (by simpa only [LChoice.Ok] using h), rfl⟩, ?_⟩
      have hl := LSimple.lead e h
      rw [hb] at hl
      refine First.orR (fun x hx => ?_) (First.orL (First.map (f := Choice.simple) (f.mono fun s hs => hs.mid.deC)))
      obtain ⟨d, r, h1, h2⟩ := mem_bind.1 hx
      rw [mem_pure] at h2; subst h2
      rcases mem_or.1 h1 with h1 | h1
      · obtain ⟨d, r', h3, h4⟩ := mem_bind.1 h1
        rw [mem_pure] at h4; cases h4
        rcases hl.subInd hcl h3 with h | ⟨-, h⟩
        · exact h.deC
        · cases h
      · obtain ⟨d, r', h3, h4⟩ := mem_bind.1 h1
        rw [mem_pure] at h4; cases h4
        rcases mem_or.1 h3 with h3 | h3
        · obtain ⟨n, r1, g1, g2⟩ := mem_bind.1 h3
          obtain ⟨n', r2, g3, g4⟩ := mem_bind.1 g2
          rw [mem_pure] at g4; cases g4
          obtain ⟨m, hm, hp⟩ := nameAttributePart_parts (sound_env M) g3
          rcases hl.name hcl (((ends_env M).name _ _ g1).trans (.step hm hp)) with h | ⟨-, h⟩
          · exact h.deC
          · cases h
        · obtain ⟨n, r1, g1, g2⟩ := mem_bind.1 h3
          rw [explicit_no (LSimple.flat e w h)] at g1
          · cases g1
          all_goals (simp only [chEnd, List.mem_cons, List.not_mem_nil, or_false] at hy; rcases hy with h | h | h | h <;> rw [h] <;> decide)
  | range a d b =>
    simp only [LChoice.Toks] at h
    obtain ⟨wa, _, rfl, ha, _, wb, rfl, ⟨z, rfl, hz⟩, hb⟩ := h
    simp only [List.length_append, List.length_cons, List.length_nil] at hk
    have e1 : wa ++ ([z] ++ wb) ++ y :: s = wa ++ z :: (wb ++ y :: s) := by simp
    rw [e1]
    have hzc := dir_closes hz (wb ++ y :: s)
    have hzd : Dch (z :: (wb ++ y :: s)) := by
      intro t ht
      rw [next_cons, hz]
      simp only [chEnd, List.mem_cons, List.not_mem_nil, or_false] at ht
      rcases ht with rfl | rfl | rfl | rfl <;> cases d <;> simp [dirTy]
    obtain ⟨ta, hta, fa⟩ := g.simple' ha (by omega) (M := M) (by omega) hzc.endE.toEndS
    obtain ⟨tb, htb, fb⟩ := g.simple' hb (by omega) (M := M) (by omega) hcl.endE.toEndS
    refine ⟨.discr (.range (.expl (.mk ta d tb))), ⟨?_, fun h => ?_, rfl⟩, ?_⟩
    · cases d <;> simp only [evChoice, evDiscr, evRange, evERange, LChoice.eval, hta.ev, htb.ev, dirSym]
    · simp only [LChoice.Ok] at h
      exact ⟨hta.ok h.1, htb.ok h.2⟩
    · have hl := LSimple.lead a ha
      have fe : First Dp (explicitRange (env M)) (wa ++ z :: (wb ++ y :: s)) (.mk ta d tb) (y :: s) := by
        refine fa.head (First.bindH (First.of_eq (dir_pos hz _)) (First.map (f := ERange.mk ta d) fb)) fun _ s hs => ?_
        obtain ⟨y, s', rfl, hy⟩ := hs
        refine bind_nil (toks_neg (fun a => ?_) _)
        intro hm
        simp only [List.mem_cons, Prod.mk.injEq, List.not_mem_nil, or_false] at hm
        rcases hm with ⟨h, -⟩ | ⟨h, -⟩ <;> rw [h] at hy <;> cases hy
      refine First.orL (First.map (f := Choice.discr) (First.orR (fun x hx => ?_) (First.map (f := Discr.range) (First.orR (fun x hx => ?_)
        (First.map (f := Range.expl) (fe.mono fun s hs => hs.mid.deC))))))
      · obtain ⟨d, r', h3, h4⟩ := mem_bind.1 hx
        rw [mem_pure] at h4; cases h4
        rcases hl.subInd hzc h3 with h | ⟨h, -⟩
        · exact h.deC
        · rw [h]; exact hzd
      · obtain ⟨n, r1, g1, g2⟩ := mem_bind.1 hx
        obtain ⟨n', r2, g3, g4⟩ := mem_bind.1 g2
        rw [mem_pure] at g4; cases g4
        obtain ⟨m, hm, hp⟩ := nameAttributePart_parts (sound_env M) g3
        rcases hl.name hzc (((ends_env M).name _ _ g1).trans (.step hm hp)) with h | ⟨h, -⟩
        · exact h.deC
        · rw [h]; exact hzd
  | others =>
    simp only [LChoice.Toks] at h
    obtain ⟨z, rfl, hz⟩ := h
    obtain ⟨h1, h2, h3, h4⟩ := open_no (n := M) (.inr hz) (y :: s)
    refine ⟨.others, ⟨by simp only [evChoice, LChoice.eval], fun _ => trivial, rfl⟩, ?_⟩
    refine First.orN (bind_nil (or_nil (bind_nil h2) (bind_nil (or_nil (bind_nil h1) (bind_nil (bind_nil h4))))))
      (First.orN (bind_nil h4) (First.map (f := fun _ => Choice.others) (First.tok hz _)))

theorem choice_good {k : Nat} (g : Good A k) (c : LChoice) {w : List VTok} (h : c.Toks w) (hk : w.length ≤ k) {M : Nat}
    (hM : 3 * k + 1 < M) {R : List VTok} (hR : next R = some .BAR ∨ next R = some .ARROW) :
    ∃ t, MC A t c ∧ First (De .BAR .ARROW) (choice (env M)) (w ++ R) t R := by
  obtain ⟨y, s, rfl, hy⟩ : ∃ y s, R = y :: s ∧ (y.ty = .BAR ∨ y.ty = .ARROW) := by
    cases R with
    | nil => rcases hR with h | h <;> cases h
    | cons y s => exact ⟨y, s, rfl, by simpa using hR⟩
  obtain ⟨t, ht, f⟩ := choice_goodD g c h hk hM (y := y) (by rcases hy with h | h <;> rw [h] <;> decide) s
  exact ⟨t, ht, f.mono fun s hs => ⟨hs _ (by decide), hs _ (by decide)⟩⟩

theorem choices_no {e : LExpr} {w R : List VTok} (h : e.Toks w) (hR : ArgEnd R) {M : Nat} :
    (do let c ← sepBy .BAR (choice (env M)); let _ ← tok .ARROW; return c) (w ++ R) = [] := by
  apply List.eq_nil_iff_forall_not_mem.2
  intro x hx
  obtain ⟨f, r, h1, h2⟩ := mem_bind.1 hx
  obtain ⟨f', r', h3, h4⟩ := mem_bind.1 h2
  obtain ⟨y, e1, hy, -⟩ := mem_tok.1 h3
  obtain ⟨u, e2, hu⟩ := choices_s1 (sound_env M) _ _ h1
  simp only at e1 e2
  subst e1
  have := (((LExpr.flat e w h).mono S1_S2).unique seps_S1 hu hR.stops ⟨y, r', rfl, .inr (by rw [hy]; rfl)⟩ e2).2
  rw [this] at hR
  rcases hR with h | h <;> simp [hy] at h

theorem elem_good {k : Nat} (g : Good A k) (a : LElem) {w : List VTok} (h : a.Toks w) (hk : w.length ≤ k) {M : Nat}
    (hM : 3 * k + 2 < M) {R : List VTok} (hR : ArgEnd R) :
    ∃ t, ML A t a ∧ First (De .COMMA .RPAREN) (elementAssociation (env M)) (w ++ R) t R := by
  cases a with
  | pos e =>
    simp only [LElem.Toks] at h
    obtain ⟨t, ht, f⟩ := g.expr' h hk hM hR.closes.endE
    refine ⟨.pos t, ⟨by simp only [evElem, LElem.eval, ht.ev], fun h => ht.ok (by simpa only [LElem.Ok] using h), ?_, ?_⟩, ?_⟩
    · simp only [evAgg, groupVal, LElem.isPos, if_true, LElem.eval, ht.ev]
    · simp only [oneAggP, LPrim.oneAgg, ht.agg]
    · exact First.bindH (First.noneE (choices_no h hR)) (First.map (f := Elem.pos) (f.mono fun s hs => hs.mid.de))
  | named c l e =>
    simp only [LElem.Toks] at h
    obtain ⟨wc, _, rfl, hc, wl, _, rfl, hl, _, we, rfl, ⟨z, rfl, hz⟩, he⟩ := h
    simp only [List.length_append, List.length_cons, List.length_nil] at hk
    obtain ⟨t, ht, f⟩ := g.expr' he (by omega) hM hR.closes.endE
    obtain ⟨tc, tl, htc, htl, fc⟩ := sepBy_first (p := choice (env M)) (sep := .BAR) (close := .ARROW) (T := LChoice.Toks) (LT := choicesToks)
      (M := MC A) (k := k)
      (by decide) (by intro w h; simpa only [choicesToks] using h)
      (by
        intro b l w h
        simp only [choicesToks] at h
        obtain ⟨_, _, rfl, ⟨x, rfl, hx⟩, u, v, rfl, hu, hv⟩ := h
        exact ⟨x, u, v, rfl, hx, hu, hv⟩)
      (by
        intro b u R h hk hR
        exact choice_good g b h hk (by omega) hR)
      c l wc wl hc hl (by rw [List.length_append]; omega) (z :: (we ++ R)) (by rw [next_cons, hz])
    refine ⟨.named (tc :: tl) t, ⟨?_, fun h => ?_, ?_, ?_⟩, ?_⟩
    · cases htl with
      | nil => simp only [evElem, LElem.eval, htc.ev, ht.ev]
      | cons h1 h2 => simp only [evElem, LElem.eval, evChoices, htc.ev, ht.ev, h1.ev, choices_ev h2, choicesEval]
    · cases htl with
      | nil =>
        simp only [LElem.Ok] at h
        exact ⟨⟨htc.ok h.1, trivial⟩, rfl, ht.ok h.2⟩
      | cons h1 h2 => simp only [LElem.Ok] at h
    · cases htl with
      | nil => simp only [evAgg, evElems, evElem, groupVal, LElem.isPos, LElem.eval, htc.ev, ht.ev]; rfl
      | cons h1 h2 =>
        simp only [evAgg, evElems, evElem, groupVal, LElem.isPos, LElem.eval, evChoices, htc.ev, ht.ev, h1.ev, choices_ev h2, choicesEval]; rfl
    · simp only [oneAggP, LPrim.oneAgg]
    · have e1 : wc ++ (wl ++ ([z] ++ we)) ++ R = wc ++ (wl ++ z :: (we ++ R)) := by simp
      rw [e1]
      have f1 : First None' (do let c ← sepBy .BAR (choice (env M)); let _ ← tok .ARROW; return c) (wc ++ (wl ++ z :: (we ++ R))) (tc :: tl)
          (we ++ R) := by
        refine fc.head (First.map (f := fun _ => tc :: tl) (First.tok hz _)) fun _ s hs => bind_nil (tok_next hs.2)
      exact First.bindH f1.some (First.map (f := Elem.named (tc :: tl)) (f.mono fun s hs => hs.mid.de))

/-- The tree of elements in parentheses. -/
structure MG (A : Alg V) (ts : List Elem) (e : LElem) (l : List LElem) : Prop where
  ev : evAgg A ts = groupVal A e.isPos (e.eval A) (elemsEval A l)
  ok : LElem.Ok e → elemsOk l → okElems ts
  agg : oneAggP (.agg ts) = LPrim.oneAgg (.group e l)

theorem aggregate_good {k : Nat} (g : Good A k) (e : LElem) (l : List LElem) {we wl : List VTok} (he : e.Toks we) (hl : elemsToks l wl)
    (hk : (we ++ wl).length ≤ k) {M : Nat} (hM : 3 * k + 2 < M) {o c : VTok} (ho : o.ty = .LPAREN) (hc : c.ty = .RPAREN) (R : List VTok) :
    ∃ ts, MG A ts e l ∧ First None' (aggregate (env M)) (o :: (we ++ (wl ++ c :: R))) ts R := by
  obtain ⟨te, tl, hte, htl, f⟩ := sepBy_first (p := elementAssociation (env M)) (sep := .COMMA) (close := .RPAREN) (T := LElem.Toks) (LT := elemsToks)
      (M := ML A) (k := k)
      (by decide) (by intro w h; simpa only [elemsToks] using h)
      (by
        intro b l w h
        simp only [elemsToks] at h
        obtain ⟨_, _, rfl, ⟨x, rfl, hx⟩, u, v, rfl, hu, hv⟩ := h
        exact ⟨x, u, v, rfl, hx, hu, hv⟩)
      (by
        intro b u R h hk hR
        exact elem_good g b h hk hM hR)
      e l we wl he hl hk (c :: R) (by rw [next_cons, hc])
  refine ⟨te :: tl, ⟨?_, fun h1 h2 => ?_, ?_⟩, ?_⟩
  · cases htl with
    | nil => simpa only [elemsEval] using hte.one
    | cons h1 h2 =>
      have := (elems_ev h2).1
      have e1 : ∀ (t1 t2 : Elem) ts, evAgg A (t1 :: t2 :: ts) = A.agg (evElems A (t1 :: t2 :: ts)) := by
        intro t1 t2 ts; cases t1 <;> simp only [evAgg]
      rw [e1]
      simp only [evElems, elemsEval, groupVal, hte.ev, h1.ev, this]
  · exact ⟨hte.ok h1, (elems_ev htl).2 h2⟩
  · cases htl with
    | nil => exact hte.agg
    | cons h1 h2 =>
      cases e <;> cases te <;> simp only [oneAggP, LPrim.oneAgg]
  · refine First.bindH (First.tok ho _) (f.head (First.map (f := fun _ => te :: tl) (First.tok hc R)) fun _ s hs => ?_)
    exact bind_nil (tok_next hs.2)

/-! ## Primaries -/

/-- What the step for names gives. -/
def NameG (A : Alg V) (k : Nat) : Prop := ∀ (n : LName) (w : List VTok), n.Toks w → w.length ≤ k → ∀ M, 3 * k < M → ∀ R, Stuck R →
  ∃ t, MN A t n ∧ First None' ((env M).name) (w ++ R) t R

include hA in
theorem nameG_step {k : Nat} (g : Good A k) : NameG A (k + 1) := by
  intro n w h hk M hM R hR
  obtain ⟨M, rfl⟩ : ∃ m, M = m + 1 := ⟨M - 1, by omega⟩
  obtain ⟨t, ht, hl⟩ := name_step hA g n w h hk M (by omega) R
  refine ⟨t, ht, (hl None').stop ?_⟩
  apply List.eq_nil_iff_forall_not_mem.2
  intro x hx
  obtain ⟨m, hm, -⟩ := namePart_parts (sound_env M) hx
  exact hR m hm

theorem name_no {M : Nat} {R : List VTok} (h : Not' nameStart R) : (env M).name R = [] := by
  apply List.eq_nil_iff_forall_not_mem.2
  intro x hx
  obtain ⟨y, s, rfl, hy⟩ := ((ends_env M).name _ _ hx).start
  rw [h y.ty rfl] at hy; cases hy

theorem primary_good {k : Nat} (g : Good A k) (hn : NameG A (k + 1)) (p : LPrim) {w : List VTok} (h : p.Toks w) (hk : w.length ≤ k + 1) {M : Nat}
    (hM : 3 * (k + 1) < M) {R : List VTok} (hR : EndP R) :
    ∃ t, MP A t p ∧ First Dp (primary (env M)) (w ++ R) t R := by
  cases p with
  | name n =>
    simp only [LPrim.Toks] at h
    obtain ⟨t, ht, f⟩ := hn n w h hk M hM R hR.stuck
    obtain ⟨y, s, rfl, hy⟩ := LName.start h
    refine ⟨.name t, ⟨by simp only [evPrimary, LPrim.eval, ht.ev], fun h => ht.ok (by simpa only [LPrim.Ok] using h),
      by simp only [oneAggP, LPrim.oneAgg]⟩, ?_⟩
    have h1 : y.ty ≠ .DECIMAL_LITERAL := by intro e; rw [e] at hy; cases hy
    have h2 : y.ty ≠ .BASED_LITERAL := by intro e; rw [e] at hy; cases hy
    exact First.orL (First.orN (bind_nil (tok_neg h1 _)) (First.orN (bind_nil (tok_neg h2 _)) (First.map (f := Primary.name) f.weak)))
  | dec t =>
    simp only [LPrim.Toks] at h
    obtain ⟨y, rfl, hy, rfl⟩ := h
    refine ⟨.dec y.text, ⟨by simp only [evPrimary, LPrim.eval], fun h => (by simp only [LPrim.Ok] at h; simp only [okPrimary]; exact h),
      by simp only [oneAggP, LPrim.oneAgg]⟩, ?_⟩
    exact First.orL (First.orL (First.bindH (First.tok hy R) (First.bindH (First.noneE (name_no hR.name)) (First.ret _ _))))
  | decUnit t u =>
    simp only [LPrim.Toks] at h
    obtain ⟨_, v, rfl, ⟨y, rfl, hy, rfl⟩, hv⟩ := h
    simp only [List.length_append, List.length_cons, List.length_nil] at hk
    obtain ⟨t, ht, f⟩ := hn u v hv (by omega) M hM R hR.stuck
    refine ⟨.decUnit y.text t, ⟨by simp only [evPrimary, LPrim.eval, ht.ev], fun h => ?_, by simp only [oneAggP, LPrim.oneAgg]⟩, ?_⟩
    · simp only [LPrim.Ok] at h
      exact ⟨h.1, ht.ok h.2⟩
    · exact First.orL (First.orL (First.bindH (First.tok hy _) (First.bindH f.some (First.ret _ _))))
  | based t =>
    simp only [LPrim.Toks] at h
    obtain ⟨y, rfl, hy, rfl⟩ := h
    refine ⟨.based y.text, ⟨by simp only [evPrimary, LPrim.eval], fun h => (by simp only [LPrim.Ok] at h; simp only [okPrimary]; exact h),
      by simp only [oneAggP, LPrim.oneAgg]⟩, ?_⟩
    refine First.orL (First.orN (bind_nil (tok_neg (by rw [hy]; decide) _)) (First.orL ?_))
    exact First.bindH (First.tok hy R) (First.bindH (First.noneE (name_no hR.name)) (First.ret _ _))
  | basedUnit t u =>
    simp only [LPrim.Toks] at h
    obtain ⟨_, v, rfl, ⟨y, rfl, hy, rfl⟩, hv⟩ := h
    simp only [List.length_append, List.length_cons, List.length_nil] at hk
    obtain ⟨t, ht, f⟩ := hn u v hv (by omega) M hM R hR.stuck
    refine ⟨.basedUnit y.text t, ⟨by simp only [evPrimary, LPrim.eval, ht.ev], fun h => ?_, by simp only [oneAggP, LPrim.oneAgg]⟩, ?_⟩
    · simp only [LPrim.Ok] at h
      exact ⟨h.1, ht.ok h.2⟩
    · refine First.orL (First.orN (bind_nil (tok_neg (by rw [hy]; decide) _)) (First.orL ?_))
      exact First.bindH (First.tok hy _) (First.bindH f.some (First.ret _ _))
  | bits t =>
    simp only [LPrim.Toks] at h
    obtain ⟨y, rfl, hy, rfl⟩ := h
    refine ⟨.bits y.text, ⟨by simp only [evPrimary, LPrim.eval], fun h => (by simp only [LPrim.Ok] at h; simp only [okPrimary]; exact h),
      by simp only [oneAggP, LPrim.oneAgg]⟩, ?_⟩
    refine First.orN ?_ (First.orL (First.map (f := Primary.bits) (First.tok hy R)))
    exact or_nil (bind_nil (tok_neg (by rw [hy]; decide) _)) (or_nil (bind_nil (tok_neg (by rw [hy]; decide) _))
      (bind_nil (name_no (.cons (by rw [hy]; rfl)))))
  | null =>
    simp only [LPrim.Toks] at h
    obtain ⟨y, rfl, hy⟩ := h
    refine ⟨.null, ⟨by simp only [evPrimary, LPrim.eval], fun h => trivial, by simp only [oneAggP, LPrim.oneAgg]⟩, ?_⟩
    refine First.orN ?_ (First.orN (bind_nil (tok_neg (by rw [hy]; decide) _)) (First.orL (First.map (f := fun _ => Primary.null) (First.tok hy R))))
    exact or_nil (bind_nil (tok_neg (by rw [hy]; decide) _)) (or_nil (bind_nil (tok_neg (by rw [hy]; decide) _))
      (bind_nil (name_no (.cons (by rw [hy]; rfl)))))
  | group e l =>
    simp only [LPrim.Toks] at h
    obtain ⟨_, _, rfl, ⟨o, rfl, ho⟩, we, _, rfl, he, wl, _, rfl, hl, c, rfl, hc⟩ := h
    simp only [List.length_append, List.length_cons, List.length_nil] at hk
    obtain ⟨ts, ht, f⟩ := aggregate_good g e l he hl (by rw [List.length_append]; omega) (M := M) (by omega) ho hc R
    refine ⟨.agg ts, ⟨by simp only [evPrimary, LPrim.eval, ht.ev], fun h => ?_, ht.agg⟩, ?_⟩
    · simp only [LPrim.Ok] at h
      exact ht.ok h.1 h.2
    · have e1 : [o] ++ (we ++ (wl ++ [c])) ++ R = o :: (we ++ (wl ++ c :: R)) := by simp
      rw [e1]
      refine First.orN ?_ (First.orN (bind_nil (tok_neg (by rw [ho]; decide) _)) (First.orN (bind_nil (tok_neg (by rw [ho]; decide) _))
        (First.orN (bind_nil (tok_neg (by rw [ho]; decide) _)) (First.orL (First.map (f := Primary.agg) f.weak)))))
      exact or_nil (bind_nil (tok_neg (by rw [ho]; decide) _)) (or_nil (bind_nil (tok_neg (by rw [ho]; decide) _))
        (bind_nil (name_no (.cons (by rw [ho]; rfl)))))
  | qual n e l =>
    simp only [LPrim.Toks] at h
    obtain ⟨u, _, rfl, hu, _, _, rfl, ⟨a, rfl, ha⟩, _, _, rfl, ⟨o, rfl, ho⟩, we, _, rfl, he, wl, _, rfl, hl, c, rfl, hc⟩ := h
    simp only [List.length_append, List.length_cons, List.length_nil] at hk
    obtain ⟨ts, ht, f⟩ := aggregate_good g e l he hl (by rw [List.length_append]; omega) (M := M) (by omega) ho hc R
    have e1 : u ++ ([a] ++ ([o] ++ (we ++ (wl ++ [c])))) ++ R = u ++ a :: o :: (we ++ (wl ++ c :: R)) := by simp
    rw [e1]
    have hs := qual_stuck (s := we ++ (wl ++ c :: R)) ha ho
    obtain ⟨tn, htn, fn⟩ := hn n u hu (by omega) M hM _ hs
    refine ⟨.qual tn ts, ⟨by simp only [evPrimary, LPrim.eval, htn.ev, ht.ev], fun h => ?_, by simp only [oneAggP, LPrim.oneAgg]⟩, ?_⟩
    · simp only [LPrim.Ok] at h
      exact ⟨htn.ok h.1, ht.ok h.2.1 h.2.2⟩
    · obtain ⟨y, s, rfl, hy⟩ := LName.start hu
      have hne : ∀ t : VT, nameStart t = false → y.ty ≠ t := by intro t ht e; rw [e, ht] at hy; cases hy
      have key : First Dp (qualified (env M)) (y :: s ++ a :: o :: (we ++ (wl ++ c :: R))) (tn, ts) R :=
        First.bindH fn (First.bindH (First.tok ha _) (First.map (f := fun l => (tn, l)) f.weak))
      refine First.orR (fun x hx => ?_) (First.orN (bind_nil (tok_neg (hne _ rfl) _)) (First.orN (bind_nil (tok_neg (hne _ rfl) _))
        (First.orN (bind_nil (tok_neg (hne _ rfl) _)) (First.orN (bind_nil (bind_nil (tok_neg (hne _ rfl) _)))
          (First.map (f := fun x : Name × List Elem => Primary.qual x.1 x.2) key)))))
      rcases mem_or.1 hx with hx | hx
      · rw [List.cons_append, bind_nil (tok_neg (hne _ rfl) _)] at hx; cases hx
      · rcases mem_or.1 hx with hx | hx
        · rw [List.cons_append, bind_nil (tok_neg (hne _ rfl) _)] at hx; cases hx
        · obtain ⟨m, r, h1, h2⟩ := mem_bind.1 hx
          rw [mem_pure] at h2; subst h2
          rcases ((ends_env M).name _ _ h1).last (LName.to n (y :: s) _ hu) hs with h | ⟨y', s', h, hy'⟩
          · simp only at h ⊢
            rw [h]; exact ⟨a, _, rfl, by rw [ha]; rfl⟩
          · exact ⟨y', s', h, hy'⟩

/-! ## Factors, terms, simple expressions -/

theorem pow_none {E : Env} {R : List VTok} (h : next R ≠ some .DOUBLESTAR) : (do let _ ← tok .DOUBLESTAR; primary E) R = [] :=
  bind_nil (tok_next h)

theorem primary_no {M : Nat} {y : VTok} {s : List VTok} (h : primStart y.ty = false) : primary (env M) (y :: s) = [] := by
  apply List.eq_nil_iff_forall_not_mem.2
  intro x hx
  obtain ⟨y', s', e, hy'⟩ := primary_start (ends_env M) hx
  cases e; rw [h] at hy'; cases hy'

theorem power_dead {M : Nat} (a : Primary) (s : List VTok) (hs : Dp s) (x : Simple × List VTok)
    (hx : x ∈ (do let b ← opt (do let _ ← tok .DOUBLESTAR; primary (env M)); return match b with | none => .prim a | some b => .pow a b : P Simple) s) :
    Dp x.2 := by
  obtain ⟨m, r, h1, h2⟩ := mem_bind.1 hx
  rw [opt_none (pow_none hs.not.1)] at h1
  simp only [List.mem_singleton] at h1
  cases h1
  rw [mem_pure] at h2; subst h2
  exact hs

theorem power_prim {M : Nat} {ts R : List VTok} {a : Primary} (f : First Dp (primary (env M)) ts a R) (hR : next R ≠ some .DOUBLESTAR) :
    First Dp (power (env M)) ts (.prim a) R :=
  f.bind (First.bindH (First.noneE (pow_none hR)) (First.ret _ _)) power_dead

theorem power_pow {M : Nat} {ts r R : List VTok} {a b : Primary} {y : VTok} (f : First Dp (primary (env M)) ts a (y :: r)) (hy : y.ty = .DOUBLESTAR)
    (fb : First Dp (primary (env M)) r b R) : First Dp (power (env M)) ts (.pow a b) R := by
  have f1 : First Dp (opt (do let _ ← tok .DOUBLESTAR; primary (env M))) (y :: r) (some b) R := First.some (First.bindH (First.tok hy _) fb)
  refine f.bind (f1.bind (First.ret _ _) fun c s hs x hx => ?_) power_dead
  rw [mem_pure] at hx; subst hx; exact hs

theorem lift_head {M p : Nat} {w R : List VTok} {t : Simple} (f : First Dp (simpleHead (env M)) (w ++ R) t R) :
    Lift Dp (simpleStep (env M) p) ((env (M + 1)).simple p) w R t := by
  intro x r hx
  exact f.bind (hx R.length (Nat.le_refl _)) fun c s hs => simple_dead s.length c s hs

/-- A prefix operator of a factor. -/
theorem prefix_first {M : Nat} {y : VTok} {w R : List VTok} {h : Simple → Simple} {t : Simple} (hy : primStart y.ty = false)
    (fo : First None' (P.or (toks [(.kw .ABS, Simple.abs), (.kw .NOT, Simple.not)]) (logicalOperator >>= fun o => pure (Simple.logic o)))
      (y :: (w ++ R)) h (w ++ R)) (f : First Dp ((env M).simple 4) (w ++ R) t R) :
    First Dp (simpleHead (env M)) (y :: (w ++ R)) (h t) R := by
  refine First.orN (bind_nil (primary_no hy)) (First.orL ?_)
  exact First.bindH fo (First.map (f := h) f)

theorem Good.prim4 {k : Nat} (g : Good A k) {p : LPrim} {w : List VTok} (h : p.Toks w) (hk : w.length ≤ k) {M : Nat} (hM : 3 * k + 1 < M)
    {R : List VTok} (hR : EndF R) : ∃ t, MF A t (.prim p) ∧ First Dp ((env M).simple 4) (w ++ R) t R := by
  obtain ⟨M, rfl⟩ : ∃ m, M = m + 1 := ⟨M - 1, by omega⟩
  obtain ⟨t, ht, hl⟩ := g.factor (.prim p) w (by simpa only [LFactor.Toks] using h) hk M (by omega) R hR 4
  exact ⟨t, ht, hl.stop (simpleStep_nil (.inl (by omega)) (.inl (by omega)))⟩

theorem factor_step {k : Nat} (g : Good A k) (hn : NameG A (k + 1)) (f : LFactor) (w : List VTok) (h : f.Toks w) (hk : w.length ≤ k + 1) (M : Nat)
    (hM : 3 * (k + 1) + 1 ≤ M) (R : List VTok) (hR : EndF R) (p : Nat) :
    ∃ t, MF A t f ∧ Lift Dp (simpleStep (env M) p) ((env (M + 1)).simple p) w R t := by
  cases f with
  | prim a =>
    simp only [LFactor.Toks] at h
    obtain ⟨t, ht, fp⟩ := primary_good g hn a h hk (M := M) (by omega) hR.toEndP
    refine ⟨.prim t, ⟨by simp only [evSimple, LFactor.eval, ht.ev], fun h => ht.ok (by simpa only [LFactor.Ok] using h),
      by simp only [oneAggS, LFactor.oneAgg, ht.agg]⟩, lift_head (First.orL ?_)⟩
    exact power_prim fp hR.pow
  | pow a b =>
    simp only [LFactor.Toks] at h
    obtain ⟨u, _, rfl, hu, _, v, rfl, ⟨y, rfl, hy⟩, hv⟩ := h
    simp only [List.length_append, List.length_cons, List.length_nil] at hk
    obtain ⟨tb, htb, fb⟩ := primary_good g hn b hv (by omega) (M := M) (by omega) hR.toEndP
    obtain ⟨ta, hta, fa⟩ := primary_good g hn a hu (by omega) (M := M) (by omega) (R := y :: (v ++ R))
      ⟨.cons (by rw [hy]; rfl), .cons (by rw [hy]; rfl)⟩
    refine ⟨.pow ta tb, ⟨by simp only [evSimple, LFactor.eval, hta.ev, htb.ev], fun h => ?_, by simp only [oneAggS, LFactor.oneAgg]⟩,
      lift_head (First.orL ?_)⟩
    · simp only [LFactor.Ok] at h
      exact ⟨⟨hta.ok h.1.1, by rw [hta.agg]; exact h.1.2⟩, htb.ok h.2.1, by rw [htb.agg]; exact h.2.2⟩
    · have e1 : u ++ ([y] ++ v) ++ R = u ++ y :: (v ++ R) := by simp
      rw [e1]
      exact power_pow fa hy fb
  | abs a =>
    simp only [LFactor.Toks] at h
    obtain ⟨_, v, rfl, ⟨y, rfl, hy⟩, hv⟩ := h
    simp only [List.length_append, List.length_cons, List.length_nil] at hk
    obtain ⟨t, ht, f⟩ := g.prim4 hv (by omega) (M := M) (by omega) hR
    refine ⟨.abs t, ⟨by simp only [evSimple, LFactor.eval, ht.ev], fun h => ?_, by simp only [oneAggS, LFactor.oneAgg]⟩, lift_head ?_⟩
    · simp only [LFactor.Ok] at h
      exact ⟨ht.ok h.1, by rw [ht.agg]; exact h.2⟩
    · refine prefix_first (h := Simple.abs) (by rw [hy]; rfl) (First.orL ?_) f
      exact First.of_eq (by simp [toks, alts, or_apply, bind_apply, pure_apply, tok_cons, hy])
  | not a =>
    simp only [LFactor.Toks] at h
    obtain ⟨_, v, rfl, ⟨y, rfl, hy⟩, hv⟩ := h
    simp only [List.length_append, List.length_cons, List.length_nil] at hk
    obtain ⟨t, ht, f⟩ := g.prim4 hv (by omega) (M := M) (by omega) hR
    refine ⟨.not t, ⟨by simp only [evSimple, LFactor.eval, ht.ev], fun h => ?_, by simp only [oneAggS, LFactor.oneAgg]⟩, lift_head ?_⟩
    · simp only [LFactor.Ok] at h
      exact ⟨ht.ok h.1, by rw [ht.agg]; exact h.2⟩
    · refine prefix_first (h := Simple.not) (by rw [hy]; rfl) (First.orL ?_) f
      exact First.of_eq (by simp [toks, alts, or_apply, bind_apply, pure_apply, tok_cons, hy])
  | red o a =>
    simp only [LFactor.Toks] at h
    obtain ⟨_, v, rfl, ⟨y, rfl, hy⟩, hv⟩ := h
    simp only [List.length_append, List.length_cons, List.length_nil] at hk
    obtain ⟨t, ht, f⟩ := g.prim4 hv (by omega) (M := M) (by omega) hR
    refine ⟨.logic o t, ⟨by simp only [evSimple, LFactor.eval, ht.ev], fun h => ?_, by simp only [oneAggS, LFactor.oneAgg]⟩, lift_head ?_⟩
    · simp only [LFactor.Ok] at h
      exact ⟨h.1, ht.ok h.2.1, by rw [ht.agg]; exact h.2.2⟩
    · refine prefix_first (h := Simple.logic o) (by rw [hy]; cases o <;> rfl) (First.orN ?_ ?_) f
      · refine toks_neg (fun a hm => ?_) _
        simp only [List.mem_cons, Prod.mk.injEq, List.not_mem_nil, or_false] at hm
        rw [hy] at hm
        cases o <;> simp [logTy] at hm
      · exact First.map (f := Simple.logic) (First.of_eq (logic_pos hy _))

theorem mul_end {o : MulOp} {y : VTok} (hy : y.ty = mulTy o) (s : List VTok) : EndF (y :: s) where
  name := .cons (by rw [hy]; cases o <;> rfl)
  part := .cons (by rw [hy]; cases o <;> rfl)
  pow := by rw [next_cons, hy]; cases o <;> decide

theorem add_end {o : AddOp} {y : VTok} (hy : y.ty = addTy o) (s : List VTok) : EndT (y :: s) where
  name := .cons (by rw [hy]; cases o <;> rfl)
  part := .cons (by rw [hy]; cases o <;> rfl)
  pow := by rw [next_cons, hy]; cases o <;> decide
  mul := .cons (by rw [hy]; cases o <;> rfl)

theorem shift_end {o : ShiftOp} {y : VTok} (hy : y.ty = shiftTy o) (s : List VTok) : EndS (y :: s) where
  name := .cons (by rw [hy]; cases o <;> rfl)
  part := .cons (by rw [hy]; cases o <;> rfl)
  pow := by rw [next_cons, hy]; cases o <;> decide
  mul := .cons (by rw [hy]; cases o <;> rfl)
  add := .cons (by rw [hy]; cases o <;> rfl)

theorem rel_end {o : RelOp} {y : VTok} (hy : y.ty = relTy o) (s : List VTok) : EndH (y :: s) where
  name := .cons (by rw [hy]; cases o <;> rfl)
  part := .cons (by rw [hy]; cases o <;> rfl)
  pow := by rw [next_cons, hy]; cases o <;> decide
  mul := .cons (by rw [hy]; cases o <;> rfl)
  add := .cons (by rw [hy]; cases o <;> rfl)
  shift := .cons (by rw [hy]; cases o <;> rfl)

theorem logic_end {o : LogOp} {y : VTok} (hy : y.ty = logTy o) (s : List VTok) : EndR (y :: s) where
  name := .cons (by rw [hy]; cases o <;> rfl)
  part := .cons (by rw [hy]; cases o <;> rfl)
  pow := by rw [next_cons, hy]; cases o <;> decide
  mul := .cons (by rw [hy]; cases o <;> rfl)
  add := .cons (by rw [hy]; cases o <;> rfl)
  shift := .cons (by rw [hy]; cases o <;> rfl)
  rel := .cons (by rw [hy]; cases o <;> rfl)

theorem term_step {k : Nat} (g : Good A k) (hn : NameG A (k + 1)) : ∀ (f : LTerm) (w : List VTok), f.Toks w → w.length ≤ k + 1 → ∀ M,
    3 * (k + 1) + 1 ≤ M → ∀ R, EndF R → ∀ p, p ≤ 3 → ∃ t, MT A t f ∧ Lift Dp (simpleStep (env M) p) ((env (M + 1)).simple p) w R t
  | .one f, w, h, hk, M, hM, R, hR, p, hp => by
    simp only [LTerm.Toks] at h
    obtain ⟨t, ht, hl⟩ := factor_step g hn f w h hk M hM R hR p
    exact ⟨t, ⟨by simp only [LTerm.eval, ht.ev], fun h => ht.ok (by simpa only [LTerm.Ok] using h), by simp only [LTerm.oneAgg, ht.agg]⟩, hl⟩
  | .mul a o f, w, h, hk, M, hM, R, hR, p, hp => by
    simp only [LTerm.Toks] at h
    obtain ⟨u, _, rfl, hu, _, v, rfl, ⟨y, rfl, hy⟩, hv⟩ := h
    simp only [List.length_append, List.length_cons, List.length_nil] at hk
    have e1 : [y] ++ v ++ R = y :: (v ++ R) := rfl
    obtain ⟨ta, hta, hl⟩ := term_step g hn a u hu (by omega) M hM ([y] ++ v ++ R) (mul_end hy _) p hp
    obtain ⟨M', rfl⟩ : ∃ m, M = m + 1 := ⟨M - 1, by omega⟩
    obtain ⟨tb, htb, hb⟩ := g.factor f v hv (by have := (LTerm.lead a hu).start; obtain ⟨_, _, rfl, _⟩ := this; simp at hk; omega) M' (by omega) R hR 4
    have fb := hb.stop (simpleStep_nil (.inl (by omega)) (.inl (by omega)))
    refine ⟨.mul ta o tb, ⟨by simp only [evSimple, LTerm.eval, hta.ev, htb.ev], fun h => ?_, by simp only [oneAggS, LTerm.oneAgg]⟩,
      hl.extend (by simp) ?_ simple_dead⟩
    · simp only [LTerm.Ok] at h
      exact ⟨⟨hta.ok h.1.1, by rw [hta.agg]; exact h.1.2⟩, htb.ok h.2.1, by rw [htb.agg]; exact h.2.2⟩
    · refine First.orL ?_
      rw [prec_pos hp]
      exact First.bindH (First.of_eq (mul_pos hy _)) (First.map (f := Simple.mul ta o) fb)

theorem simple_step {k : Nat} (g : Good A k) (hn : NameG A (k + 1)) : ∀ (f : LSimple) (w : List VTok), f.Toks w → w.length ≤ k + 1 → ∀ M,
    3 * (k + 1) + 1 ≤ M → ∀ R, EndT R → ∀ p, p ≤ 1 → ∃ t, MS A t f ∧ Lift Dp (simpleStep (env M) p) ((env (M + 1)).simple p) w R t
  | .one f, w, h, hk, M, hM, R, hR, p, hp => by
    simp only [LSimple.Toks] at h
    obtain ⟨t, ht, hl⟩ := term_step g hn f w h hk M hM R hR.toEndF p (by omega)
    exact ⟨t, ⟨by simp only [LSimple.eval, ht.ev], fun h => ht.ok (by simpa only [LSimple.Ok] using h), by simp only [LSimple.oneAgg, ht.agg]⟩, hl⟩
  | .signed o f, w, h, hk, M, hM, R, hR, p, hp => by
    simp only [LSimple.Toks] at h
    obtain ⟨_, v, rfl, ⟨y, rfl, hy⟩, hv⟩ := h
    simp only [List.length_append, List.length_cons, List.length_nil] at hk
    obtain ⟨M', rfl⟩ : ∃ m, M = m + 1 := ⟨M - 1, by omega⟩
    obtain ⟨t, ht, hl⟩ := g.term f v hv (by omega) M' (by omega) R hR.toEndF 2 (by omega)
    have f := hl.stop (simpleStep_nil (.inr hR.mul) (.inl (by omega)))
    refine ⟨.sign o t, ⟨by simp only [evSimple, LSimple.eval, ht.ev], fun h => ?_, by simp only [oneAggS, LSimple.oneAgg]⟩, lift_head ?_⟩
    · simp only [LSimple.Ok] at h
      exact ⟨ht.ok h.1, by rw [ht.agg]; exact h.2⟩
    · have n1 : logicalOperator (y :: (v ++ R)) = [] := logic_neg' (.cons (by rw [hy]; cases o <;> rfl))
      have n2 : toks [(.kw .ABS, Simple.abs), (.kw .NOT, Simple.not)] (y :: (v ++ R)) = [] := by
        refine toks_neg (fun a hm => ?_) _
        simp only [List.mem_cons, Prod.mk.injEq, List.not_mem_nil, or_false] at hm
        rw [hy] at hm
        cases o <;> simp [signTy] at hm
      refine First.orN (bind_nil (primary_no (by rw [hy]; cases o <;> rfl))) (First.orN (bind_nil (or_nil n2 (bind_nil n1))) ?_)
      exact First.bindH (First.of_eq (sign_pos hy _)) (First.map (f := Simple.sign o) f)
  | .add a o f, w, h, hk, M, hM, R, hR, p, hp => by
    simp only [LSimple.Toks] at h
    obtain ⟨u, _, rfl, hu, _, v, rfl, ⟨y, rfl, hy⟩, hv⟩ := h
    simp only [List.length_append, List.length_cons, List.length_nil] at hk
    obtain ⟨ta, hta, hl⟩ := simple_step g hn a u hu (by omega) M hM ([y] ++ v ++ R) (add_end hy _) p hp
    obtain ⟨M', rfl⟩ : ∃ m, M = m + 1 := ⟨M - 1, by omega⟩
    obtain ⟨tb, htb, hb⟩ := g.term f v hv (by have := (LSimple.lead a hu).start; obtain ⟨_, _, rfl, _⟩ := this; simp at hk; omega) M' (by omega) R
      hR.toEndF 2 (by omega)
    have fb := hb.stop (simpleStep_nil (.inr hR.mul) (.inl (by omega)))
    refine ⟨.add ta o tb, ⟨by simp only [evSimple, LSimple.eval, hta.ev, htb.ev], fun h => ?_, by simp only [oneAggS, LSimple.oneAgg]⟩,
      hl.extend (by simp) ?_ simple_dead⟩
    · simp only [LSimple.Ok] at h
      exact ⟨⟨hta.ok h.1.1, by rw [hta.agg]; exact h.1.2⟩, htb.ok h.2.1, by rw [htb.agg]; exact h.2.2⟩
    · refine First.orN (prec_nil (bind_nil (mul_neg' (add_end hy (v ++ R)).mul))) ?_
      rw [prec_pos hp]
      exact First.bindH (First.of_eq (add_pos hy _)) (First.map (f := Simple.add ta o) fb)

/-! ## Expressions -/

theorem lift_headE {M p : Nat} {w R : List VTok} {t : Expression} (f : First Dp (expressionHead (env M)) (w ++ R) t R) :
    Lift Dp (expressionStep (env M) p) ((env (M + 1)).expression p) w R t := by
  intro x r hx
  exact f.bind (hx R.length (Nat.le_refl _)) fun c s hs => expression_dead s.length c s hs

theorem simple_cond {n p : Nat} {y : VTok} {s : List VTok} {x : Simple × List VTok} (hx : x ∈ (env n).simple p (y :: s)) :
    y.ty ≠ .COND_OP := by
  intro hy
  cases n with
  | zero => cases hx
  | succ n =>
    obtain ⟨b, r, h0, -⟩ := mem_bind.1 hx
    obtain ⟨q, hq, h1⟩ := mem_alts.1 h0
    simp only [List.mem_cons, List.not_mem_nil, or_false] at hq
    rcases hq with rfl | rfl | rfl
    · rw [power, bind_nil (primary_no (by rw [hy]; rfl))] at h1; cases h1
    · obtain ⟨c, r1, h2, -⟩ := mem_bind.1 h1
      rcases mem_or.1 h2 with h3 | h3
      · rw [toks_neg (by intro a; rw [hy]; simp)] at h3; cases h3
      · rw [bind_nil (logic_neg' (.cons (by rw [hy]; rfl)))] at h3; cases h3
    · obtain ⟨c, r1, h2, -⟩ := mem_bind.1 h1
      rw [sign, toks_neg (by intro a; rw [hy]; simp)] at h2; cases h2

theorem one_step {k : Nat} (g : Good A k) (hn : NameG A (k + 1)) (f : LSimple) (w : List VTok) (h : f.Toks w) (hk : w.length ≤ k + 1) (M : Nat)
    (hM : 3 * (k + 1) + 2 ≤ M) (R : List VTok) (hR : EndS R) (p : Nat) :
    ∃ t, MS A t f ∧ Lift Dp (expressionStep (env M) p) ((env (M + 1)).expression p) w R (.simple t) := by
  obtain ⟨M', rfl⟩ : ∃ m, M = m + 1 := ⟨M - 1, by omega⟩
  obtain ⟨t, ht, hl⟩ := simple_step g hn f w h hk M' (by omega) R hR.toEndT 0 (by omega)
  refine ⟨t, ht, lift_headE ?_⟩
  have f' := hl.stop (simpleStep_nil (.inr hR.mul) (.inr hR.add))
  obtain ⟨y, s, rfl, hy⟩ := (LSimple.lead f h).start
  refine First.orN (bind_nil (tok_neg ?_ _)) (First.map (f := Expression.simple) f')
  obtain ⟨pre, post, e, -⟩ := f'
  exact simple_cond (n := M' + 1) (p := 0) (x := (t, R)) (by rw [List.cons_append] at e; rw [e]; simp)

theorem shift_step {k : Nat} (g : Good A k) (hn : NameG A (k + 1)) (f : LShift) (w : List VTok) (h : f.Toks w) (hk : w.length ≤ k + 1) (M : Nat)
    (hM : 3 * (k + 1) + 2 ≤ M) (R : List VTok) (hR : EndS R) (p : Nat) (hp : p ≤ 3) :
    ∃ t, MH A t f ∧ Lift Dp (expressionStep (env M) p) ((env (M + 1)).expression p) w R t := by
  cases f with
  | one f =>
    simp only [LShift.Toks] at h
    obtain ⟨t, ht, hl⟩ := one_step g hn f w h hk M hM R hR p
    exact ⟨.simple t, ⟨by simp only [evExpression, LShift.eval, ht.ev], fun h => ht.ok (by simpa only [LShift.Ok] using h),
      by simp only [oneAggE, LShift.oneAgg, ht.agg]⟩, hl⟩
  | shift a o b =>
    simp only [LShift.Toks] at h
    obtain ⟨u, _, rfl, hu, _, v, rfl, ⟨y, rfl, hy⟩, hv⟩ := h
    simp only [List.length_append, List.length_cons, List.length_nil] at hk
    obtain ⟨ta, hta, hl⟩ := one_step g hn a u hu (by omega) M hM ([y] ++ v ++ R) (shift_end hy _) p
    obtain ⟨M', rfl⟩ : ∃ m, M = m + 1 := ⟨M - 1, by omega⟩
    obtain ⟨tb, htb, hb⟩ := g.one b v hv (by have := (LSimple.lead a hu).start; obtain ⟨_, _, rfl, _⟩ := this; simp at hk; omega) M' (by omega) R
      hR 4
    have fb := hb.stop (expressionStep_nil (.inl (by omega)) (.inl (by omega)) (.inl (by omega)))
    refine ⟨.shift (.simple ta) o (.simple tb), ⟨by simp only [evExpression, LShift.eval, hta.ev, htb.ev], fun h => ?_,
      by simp only [oneAggE, LShift.oneAgg]⟩, hl.extend (by simp) ?_ expression_dead⟩
    · simp only [LShift.Ok] at h
      exact ⟨hta.ok h.1, htb.ok h.2⟩
    · refine First.orL ?_
      rw [prec_pos hp]
      exact First.bindH (First.of_eq (shift_pos hy _)) (First.map (f := Expression.shift (.simple ta) o) fb)

theorem rel_step {k : Nat} (g : Good A k) (hn : NameG A (k + 1)) (f : LRel) (w : List VTok) (h : f.Toks w) (hk : w.length ≤ k + 1) (M : Nat)
    (hM : 3 * (k + 1) + 2 ≤ M) (R : List VTok) (hR : EndH R) (p : Nat) (hp : p ≤ 2) :
    ∃ t, MR A t f ∧ Lift Dp (expressionStep (env M) p) ((env (M + 1)).expression p) w R t := by
  cases f with
  | one f =>
    simp only [LRel.Toks] at h
    obtain ⟨t, ht, hl⟩ := shift_step g hn f w h hk M hM R hR.toEndS p (by omega)
    exact ⟨t, ⟨by simp only [LRel.eval, ht.ev], fun h => ht.ok (by simpa only [LRel.Ok] using h), by simp only [LRel.oneAgg, ht.agg]⟩, hl⟩
  | rel a o b =>
    simp only [LRel.Toks] at h
    obtain ⟨u, _, rfl, hu, _, v, rfl, ⟨y, rfl, hy⟩, hv⟩ := h
    simp only [List.length_append, List.length_cons, List.length_nil] at hk
    obtain ⟨ta, hta, hl⟩ := shift_step g hn a u hu (by omega) M hM ([y] ++ v ++ R) (rel_end hy _).toEndS p (by omega)
    obtain ⟨M', rfl⟩ : ∃ m, M = m + 1 := ⟨M - 1, by omega⟩
    obtain ⟨tb, htb, hb⟩ := g.shift b v hv (by have := (LShift.lead hu).start; obtain ⟨_, _, rfl, _⟩ := this; simp at hk; omega) M' (by omega) R
      hR.toEndS 3 (by omega)
    have fb := hb.stop (expressionStep_nil (.inr hR.shift) (.inl (by omega)) (.inl (by omega)))
    refine ⟨.rel ta o tb, ⟨by simp only [evExpression, LRel.eval, hta.ev, htb.ev], fun h => ?_, by simp only [oneAggE, LRel.oneAgg]⟩,
      hl.extend (by simp) ?_ expression_dead⟩
    · simp only [LRel.Ok] at h
      exact ⟨hta.ok h.1, htb.ok h.2⟩
    · refine First.orN (prec_nil (bind_nil (shift_neg' (rel_end hy (v ++ R)).shift))) (First.orL ?_)
      rw [prec_pos hp]
      exact First.bindH (First.of_eq (rel_pos hy _)) (First.map (f := Expression.rel ta o) fb)

theorem expr_step {k : Nat} (g : Good A k) (hn : NameG A (k + 1)) : ∀ (f : LExpr) (w : List VTok), f.Toks w → w.length ≤ k + 1 → ∀ M,
    3 * (k + 1) + 2 ≤ M → ∀ R, EndR R → ∀ p, p ≤ 1 → ∃ t, ME A t f ∧ Lift Dp (expressionStep (env M) p) ((env (M + 1)).expression p) w R t
  | .cond a, w, h, hk, M, hM, R, hR, p, hp => by
    simp only [LExpr.Toks] at h
    obtain ⟨_, v, rfl, ⟨y, rfl, hy⟩, hv⟩ := h
    simp only [List.length_append, List.length_cons, List.length_nil] at hk
    obtain ⟨t, ht, f⟩ := primary_good g hn a hv (by omega) (M := M) (by omega) hR.toEndP
    refine ⟨.cond t, ⟨by simp only [evExpression, LExpr.eval, ht.ev], fun h => by simp only [LExpr.Ok] at h, by simp only [oneAggE, LExpr.oneAgg]⟩,
      lift_headE (First.orL ?_)⟩
    exact First.bindH (First.tok hy _) (First.map (f := Expression.cond) f)
  | .one f, w, h, hk, M, hM, R, hR, p, hp => by
    simp only [LExpr.Toks] at h
    obtain ⟨t, ht, hl⟩ := rel_step g hn f w h hk M hM R hR.toEndH p (by omega)
    exact ⟨t, ⟨by simp only [LExpr.eval, ht.ev], fun h => ht.ok (by simpa only [LExpr.Ok] using h), by simp only [LExpr.oneAgg, ht.agg]⟩, hl⟩
  | .logic a o b, w, h, hk, M, hM, R, hR, p, hp => by
    simp only [LExpr.Toks] at h
    obtain ⟨u, _, rfl, hu, _, v, rfl, ⟨y, rfl, hy⟩, hv⟩ := h
    simp only [List.length_append, List.length_cons, List.length_nil] at hk
    obtain ⟨ta, hta, hl⟩ := expr_step g hn a u hu (by omega) M hM ([y] ++ v ++ R) (logic_end hy _) p hp
    obtain ⟨M', rfl⟩ : ∃ m, M = m + 1 := ⟨M - 1, by omega⟩
    obtain ⟨tb, htb, hb⟩ := g.rel b v hv (by have := (LExpr.lead a hu).start; obtain ⟨_, _, rfl, _⟩ := this; simp at hk; omega) M' (by omega) R
      hR.toEndH 2 (by omega)
    have fb := hb.stop (expressionStep_nil (.inr hR.shift) (.inr hR.rel) (.inl (by omega)))
    refine ⟨.logic ta o tb, ⟨by simp only [evExpression, LExpr.eval, hta.ev, htb.ev], fun h => ?_, by simp only [oneAggE, LExpr.oneAgg]⟩,
      hl.extend (by simp) ?_ expression_dead⟩
    · simp only [LExpr.Ok] at h
      exact ⟨hta.ok h.1, htb.ok h.2⟩
    · refine First.orN (prec_nil (bind_nil (shift_neg' (logic_end hy (v ++ R)).shift)))
        (First.orN (prec_nil (bind_nil (rel_neg' (logic_end hy (v ++ R)).rel))) ?_)
      rw [prec_pos hp]
      exact First.bindH (First.of_eq (logic_pos hy _)) (First.map (f := Expression.logic ta o) fb)

theorem empty_no {o : Option LName} {w : List VTok} (h : Lead o w) (hk : w.length ≤ 0) : False := by
  obtain ⟨y, s, rfl, -⟩ := h.start
  simp at hk

include hA in
/-- All texts are parsed right. -/
theorem good_all : ∀ k, Good A k
  | 0 => {
      name := fun n w h hk => by
        obtain ⟨y, s, rfl, -⟩ := LName.start h
        simp at hk
      factor := fun f w h hk => (empty_no (LFactor.lead h) hk).elim
      term := fun f w h hk => (empty_no (LTerm.lead f h) hk).elim
      simple := fun f w h hk => (empty_no (LSimple.lead f h) hk).elim
      one := fun f w h hk => (empty_no (LSimple.lead f h) hk).elim
      shift := fun f w h hk => (empty_no (LShift.lead h) hk).elim
      rel := fun f w h hk => (empty_no (LRel.lead h) hk).elim
      expr := fun f w h hk => (empty_no (LExpr.lead f h) hk).elim }
  | k + 1 =>
    have g := good_all k
    have hn := nameG_step hA g
    { name := name_step hA g
      factor := factor_step g hn
      term := term_step g hn
      simple := simple_step g hn
      one := one_step g hn
      shift := shift_step g hn
      rel := rel_step g hn
      expr := expr_step g hn }

end

/-! ## Surroundings -/

theorem after_endE {y : VTok} (h : y.ty ∈ afterExpr) (s : List VTok) : EndE (y :: s) := by
  refine endE_of fun t ht => ?_
  cases ht
  generalize y.ty = t at h
  simp only [afterExpr, List.mem_cons, List.not_mem_nil, or_false] at h
  rcases h with rfl | rfl | rfl | rfl | rfl | rfl | rfl | rfl | rfl | rfl | rfl | rfl | rfl | rfl | rfl | rfl | rfl | rfl | rfl <;>
    exact ⟨rfl, rfl, rfl⟩

theorem goesOn_dp {s : List VTok} (h : Dp s) : ∃ y r, s = y :: r ∧ y.ty ∈ goesOn := by
  obtain ⟨y, r, rfl, hy⟩ := h
  refine ⟨y, r, rfl, ?_⟩
  unfold partStart at hy
  split at hy <;> simp_all [goesOn]

theorem First.find {α : Type} {D : List VTok → Prop} {p : P α} {ts r : List VTok} {a : α} (h : First D p ts a r) {q : List VTok → Bool}
    (hq : q r = true) (hD : ∀ s, D s → q s = false) : (p ts).find? (fun x => q x.2) = Option.some (a, r) := by
  obtain ⟨pre, post, e, hp⟩ := h
  rw [e, List.find?_append, List.find?_eq_none.2 (by intro x hx; simp [hD _ (hp x hx)]), List.find?_cons_of_pos (by simpa using hq)]
  rfl

theorem mem_open (t : VT) : t ∈ [VT.LPAREN, .LSQUARE_BR, .SHIFT_LEFT] ↔ isOpen t = true := by
  cases t <;> simp [isOpen]
theorem mem_close (t : VT) : t ∈ [VT.RPAREN, .RSQUARE_BR, .SHIFT_RIGHT] ↔ isClose t = true := by
  cases t <;> simp [isClose]

theorem Bal.depth {u : List VTok} (hu : Bal u) : ∀ (d : Nat) (x : List VTok), depthAfter d (u ++ x) = depthAfter d x := by
  induction hu with
  | nil => intros; rfl
  | @atom t w h1 h2 _ ih =>
    intro d x
    rw [List.cons_append, depthAfter, if_neg (by rw [mem_open, h1]; decide), if_neg (by rw [mem_close, h2]; decide), ih]
  | @grp o c u w h1 h2 _ _ ihu ih =>
    intro d x
    have hc : isOpen c.ty = false := by
      cases h : c.ty <;> simp_all [isOpen, isClose]
    rw [List.cons_append, List.append_assoc, depthAfter, if_pos ((mem_open _).2 h1), ihu, List.cons_append, depthAfter,
      if_neg (by rw [mem_open, hc]; decide), if_pos ((mem_close _).2 h2), if_neg (Nat.succ_ne_zero d)]
    exact ih d x

end Verif.Vhdl
