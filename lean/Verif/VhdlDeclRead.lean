import Verif.Vhdl.UnitGrammar
import Verif.Spec.VhdlDesign
import Verif.VhdlStmGood
import Verif.VhdlUnitLemmas
/-!
# VHDL: the parser reads subtypes, interfaces and types as the LRM says
-/
namespace Verif.Vhdl
open P Verif.Spec Verif.Spec.Lrm

/-- Not where a subtype or a range ends. -/
def dmTok (t : VT) : Bool := partStart t || opTok t || t == .kw .TO || t == .kw .DOWNTO
def Dm (s : List VTok) : Prop := ∃ t, next s = some t ∧ dmTok t = true

theorem Mid.dm {s : List VTok} (h : Mid s) : Dm s := by
  obtain ⟨y, s, rfl, hy⟩ := h
  refine ⟨_, next_cons _ _, ?_⟩
  rcases hy with hy | hy <;> simp [dmTok, hy]

theorem Dm.dir {d : Bool} {s r : List VTok} {z : VTok} (h : s = z :: r) (hz : z.ty = dirTy d) : Dm s := by
  subst h
  refine ⟨_, next_cons _ _, ?_⟩
  rw [hz]
  cases d <;> rfl

theorem Dm.ne {s : List VTok} (h : Dm s) {t : VT} (ht : dmTok t = false) : next s ≠ some t := by
  obtain ⟨t', e, h⟩ := h
  rw [e]
  intro e'
  cases e'
  rw [ht] at h; cases h

theorem Dm.tok {s : List VTok} (h : Dm s) {t : VT} (ht : dmTok t = false) : P.tok t s = [] := tok_next (h.ne ht)

/-- `p` gives nothing where `D` holds. -/
abbrev Dead {α : Type} (D : List VTok → Prop) (p : P α) : Prop := ∀ s, D s → p s = []
/-- `p` gives only rests where `D` holds where `D` holds. -/
abbrev Stay {α : Type} (D : List VTok → Prop) (p : P α) : Prop := ∀ s, D s → ∀ x ∈ p s, D x.2

theorem Stay.ret {α : Type} {D : List VTok → Prop} (a : α) : Stay D (pure a) := fun s hs x hx => by rw [mem_pure] at hx; rw [hx]; exact hs
theorem Stay.bind {α β : Type} {D : List VTok → Prop} {p : P α} {f : α → P β} (h : Stay D p) (hf : ∀ a, Stay D (f a)) : Stay D (p >>= f) :=
  fun s hs x hx => by
    obtain ⟨a, r, h1, h2⟩ := mem_bind.1 hx
    exact hf a r (h s hs _ h1) x h2
theorem Stay.opt {α : Type} {D : List VTok → Prop} {p : P α} (h : Dead D p) : Stay D (P.opt p) := fun s hs x hx => by
  rw [opt_none (h s hs)] at hx
  simp only [List.mem_cons, List.not_mem_nil, or_false] at hx
  rw [hx]; exact hs
theorem Dead.bind {α β : Type} {D : List VTok → Prop} {p : P α} {f : α → P β} (h : Dead D p) : Dead D (p >>= f) := fun s hs => bind_nil (h s hs)
theorem Dead.next {α β : Type} {D : List VTok → Prop} {p : P α} {f : α → P β} (h : Stay D p) (hf : ∀ a, Dead D (f a)) : Dead D (p >>= f) := fun s hs => by
  apply List.eq_nil_iff_forall_not_mem.2
  intro x hx
  obtain ⟨a, r, h1, h2⟩ := mem_bind.1 hx
  rw [hf a r (h s hs _ h1)] at h2; cases h2
theorem Dead.tok {t : VT} (ht : dmTok t = false) : Dead Dm (P.tok t) := fun _ h => h.tok ht

/-! ## Lists -/

section
variable {α β : Type} {p : P α} {sep : VT} {T : β → List VTok → Prop} {Mx : α → β → Prop} {k : Nat}

theorem sep_rd {D C : List VTok → Prop} (hC : ∀ R, C R → next R ≠ some sep) (hD : ∀ s, D s → next s ≠ some sep)
    (good : ∀ b u R, T b u → u.length ≤ k → (next R = some sep ∨ C R) → ∃ a, Mx a b ∧ Rd D p u R a) {l : List β} {w R : List VTok}
    (h : Sep sep T l w) (hk : w.length ≤ k) (hR : C R) : ∃ as, List.Forall₂ Mx as l ∧ Rd D (sepBy sep p) w R as := by
  cases l with
  | nil => exact h.elim
  | cons b l =>
    obtain ⟨u, v, rfl, hu, hv⟩ := h
    obtain ⟨a, as, ma, mas, f⟩ := sepBy_firstD (p := p) (sep := sep) (D := D) (C := C) (T := T) (M := Mx)
      (LT := Rep fun n => Cat (One sep) (T n)) (k := k) hC hD (fun _ h => h)
      (fun b l w h => by obtain ⟨_, v, rfl, ⟨x, u, rfl, ⟨y, rfl, hy⟩, hu⟩, hv⟩ := h; exact ⟨y, u, v, by simp, hy, hu, hv⟩)
      good b l u v hu hv hk R hR
    refine ⟨a :: as, .cons ma mas, ?_⟩
    rw [Rd, List.append_assoc]; exact f

theorem rep_rd {D C Q : List VTok → Prop} (hD : ∀ s, D s → p s = []) (hC : ∀ R, C R → p R = []) (hCQ : ∀ R, C R → Q R)
    (hQ : ∀ b u R, T b u → Q (u ++ R)) (hne : ∀ b u, T b u → u ≠ [])
    (good : ∀ b u R, T b u → u.length ≤ k → Q R → ∃ a, Mx a b ∧ Rd D p u R a) {l : List β} {w R : List VTok} (h : Rep T l w) (hk : w.length ≤ k)
    (hR : C R) : ∃ as, List.Forall₂ Mx as l ∧ Rd D (many p) w R as :=
  many_rd (T := T) (LT := Rep T) (M := Mx) (D := D) (C := C) (Q := Q) hD hC hCQ (fun _ h => h) (fun _ _ _ h => h) hQ hne good l w h hk R hR

end

theorem Sep.ne {β : Type} {sep : VT} {T : β → List VTok → Prop} {l : List β} {w : List VTok} (h : Sep sep T l w) (hT : ∀ b u, T b u → u ≠ []) : w ≠ [] := by
  cases l with
  | nil => exact h.elim
  | cons b l =>
    obtain ⟨u, v, rfl, hu, hv⟩ := h
    simp [hT b u hu]

theorem Ident.ne {s : Str} {w : List VTok} (h : Ident s w) : w ≠ [] := by obtain ⟨y, rfl, -⟩ := h; simp

theorem Ident.nx {s : Str} {w R : List VTok} (h : Ident s w) : Nx [.BASIC_IDENTIFIER, .EXTENDED_IDENTIFIER] (w ++ R) := by
  obtain ⟨y, rfl, h, -⟩ := h
  refine ⟨y.ty, next_cons _ _, ?_⟩
  rcases h with h | h <;> rw [h] <;> decide

theorem idents_nx {l : List Str} {w R : List VTok} (h : Sep .COMMA Ident l w) : Nx [.BASIC_IDENTIFIER, .EXTENDED_IDENTIFIER] (w ++ R) := by
  cases l with
  | nil => exact h.elim
  | cons b l =>
    obtain ⟨u, v, rfl, hu, hv⟩ := h
    rw [List.append_assoc]; exact Ident.nx hu

/-- A list of identifiers. -/
theorem idents_rd {l : List Str} {w R : List VTok} (h : Sep .COMMA Ident l w) (hR : next R ≠ some .COMMA) : Rd None' identifierList w R l := by
  obtain ⟨as, m, f⟩ := sep_rd (p := identifier) (T := Ident) (Mx := Eq) (D := None') (C := fun R => next R ≠ some .COMMA) (k := w.length) (fun _ h => h)
    (fun _ h => h.elim) (fun b u R hb _ _ => ⟨b, rfl, ident_rd hb⟩) h (Nat.le_refl _) hR
  rw [List.forall₂_eq_eq_eq] at m
  rw [← m]; exact f

/-! ## Ranges -/

section
variable {V : Type} {A : Alg V} {k M : Nat} (g : Good A k) (hM : 3 * k + 2 < M)
include g hM

omit hM in
/-- `a to b` -/
theorem range_rdm (hM : 3 * k + 1 < M) {a b : LSimple} {d : Bool} {wa wd wb R : List VTok} (ha : a.Toks wa) (hd : One (dirTy d) wd) (hb : b.Toks wb)
    (hka : wa.length ≤ k) (hkb : wb.length ≤ k) (hR : Closes R) :
    ∃ ta tb, (MS A ta a ∧ MS A tb b) ∧ Rd Dm (range (env M)) (wa ++ (wd ++ wb)) R (.expl (.mk ta d tb)) := by
  obtain ⟨z, rfl, hz⟩ := hd
  have hzc := dir_closes hz (wb ++ R)
  obtain ⟨ta, hta, fa⟩ := g.simple' ha hka (M := M) (by omega) hzc.endE.toEndS
  obtain ⟨tb, htb, fb⟩ := g.simple' hb hkb (M := M) (by omega) hR.endE.toEndS
  refine ⟨ta, tb, ⟨hta, htb⟩, ?_⟩
  have hl := LSimple.lead a ha
  have fe : First Dp (explicitRange (env M)) (wa ++ z :: (wb ++ R)) (.mk ta d tb) R := by
    refine fa.head (First.bindH (First.of_eq (dir_pos hz _)) (First.map (f := ERange.mk ta d) fb)) fun _ s hs => ?_
    obtain ⟨y, s', rfl, hy⟩ := hs
    refine bind_nil (toks_neg (fun a => ?_) _)
    intro hm
    simp only [List.mem_cons, Prod.mk.injEq, List.not_mem_nil, or_false] at hm
    rcases hm with ⟨h, -⟩ | ⟨h, -⟩ <;> rw [h] at hy <;> cases hy
  have e : (wa ++ ([z] ++ wb)) ++ R = wa ++ z :: (wb ++ R) := by simp
  rw [Rd, e]
  refine First.orR (fun x hx => ?_) (First.map (f := Range.expl) (fe.mono fun s hs => hs.mid.dm))
  obtain ⟨n, r1, g1, g2⟩ := mem_bind.1 hx
  obtain ⟨n', r2, g3, g4⟩ := mem_bind.1 g2
  rw [mem_pure] at g4; cases g4
  obtain ⟨m, hm, hp⟩ := nameAttributePart_parts (sound_env M) g3
  rcases hl.name hzc (((ends_env M).name _ _ g1).trans (.step hm hp)) with h | ⟨h, -⟩
  · exact h.dm
  · exact Dm.dir h hz

theorem discrete_rdm {d : LDiscr} {w R : List VTok} (h : d.Toks w) (hk : w.length ≤ k) (hR : Closes R) :
    ∃ t, MD A t d ∧ Rd Dm (discreteRange (env M)) w R t := by
  have hcl := hR
  cases d with
  | name n =>
    obtain ⟨t, ht, f⟩ := subInd_name g h hk (M := M) (by omega) hcl
    refine ⟨.sub (.mk .none t .none), ⟨?_, fun h => ⟨trivial, ht.ok h, trivial⟩⟩, Rd.orL (Rd.map (g := Discr.sub) (f.weak))⟩
    simp only [evDiscr, evSubInd, evConstr, LDiscr.eval, ht.ev]
  | range a d b =>
    obtain ⟨wa, _, rfl, ha, wd, wb, rfl, hd, hb⟩ := h
    simp only [List.length_append] at hk
    obtain ⟨ta, tb, ⟨hta, htb⟩, f⟩ := range_rdm (M := M) g (by omega) ha hd hb (R := R) (by omega) (by omega) hR
    refine ⟨.range (.expl (.mk ta d tb)), ⟨?_, fun h => ⟨hta.ok h.1, htb.ok h.2⟩⟩, First.orR (fun x hx => ?_) (Rd.map (g := Discr.range) f)⟩
    · cases d <;> simp only [evDiscr, evRange, evERange, LDiscr.eval, hta.ev, htb.ev, dirSym]
    · obtain ⟨z, rfl, hz⟩ := hd
      have hzc := dir_closes hz (wb ++ R)
      obtain ⟨_, r', h3, h4⟩ := mem_bind.1 hx
      rw [mem_pure] at h4; cases h4
      rw [show wa ++ ([z] ++ wb) ++ R = wa ++ z :: (wb ++ R) by simp] at h3
      rcases (LSimple.lead a ha).subInd hzc h3 with h | ⟨h, -⟩
      · exact h.dm
      · exact Dm.dir h hz
  | sub n a d b =>
    obtain ⟨wn, _, rfl, hn, wr, _, rfl, hr, wa, _, rfl, ha, wd, wb, rfl, hd, hb⟩ := h
    simp only [List.length_append] at hk
    obtain ⟨M, rfl⟩ : ∃ m, M = m + 1 := ⟨M - 1, by omega⟩
    obtain ⟨ta, tb, ⟨hta, htb⟩, f⟩ := range_rdm (M := M) g (by omega) ha hd hb (R := R) (by omega) (by omega) hR
    have hx : Nx [.kw .RANGE] ((wr ++ (wa ++ (wd ++ wb))) ++ R) := Nx.cat hr (by decide)
    obtain ⟨t, ht, fn⟩ := g.name' hn (by omega) (M := M) (by omega) (hx.stuck (by decide))
    refine ⟨.sub (.mk .none t (.range (.expl (.mk ta d tb)))), ⟨?_, fun h => ⟨trivial, ht.ok h.1, hta.ok h.2.1, htb.ok h.2.2⟩⟩, Rd.orL (Rd.map (g := Discr.sub) ?_)⟩
    · cases d <;> simp only [evDiscr, evSubInd, evConstr, evRange, evERange, LDiscr.eval, ht.ev, hta.ev, htb.ev, dirSym]
    · have f1 : First (fun s => (env M).name s = []) (opt (resolution (env M))) (wn ++ (wr ++ (wa ++ (wd ++ wb))) ++ R) none
          (wn ++ (wr ++ (wa ++ (wd ++ wb))) ++ R) := by
        refine First.none fun x hx' => ?_
        rcases mem_or.1 hx' with hx' | hx'
        · obtain ⟨m, r, h1, h2⟩ := mem_bind.1 hx'
          rw [mem_pure] at h2; subst h2
          rw [List.append_assoc] at h1
          rcases target_only (x := .name n) hn hx (by decide) (M := M) (y := (.name m, r)) (mem_or.2 (.inl (mem_bind.2 ⟨m, r, h1, mem_pure.2 rfl⟩))) with h | h
          · simp only at h ⊢
            rw [h]
            exact name_no fun t e => by
              obtain ⟨t', e', ht'⟩ := hx
              rw [e'] at e; cases e
              simp only [List.mem_cons, List.not_mem_nil, or_false] at ht'
              rw [ht']; rfl
          · refine name_no fun t e => ?_
            obtain ⟨y, s, e', hy⟩ := h
            simp only at e' ⊢
            rw [e', next_cons] at e
            cases e
            exact (partStart_facts hy).2
        · obtain ⟨m, r, h1, h2⟩ := mem_bind.1 hx'
          obtain ⟨m', r', h3, h4⟩ := mem_bind.1 h1
          obtain ⟨y0, s0, e0, h0⟩ := LName.start hn
          rw [e0, List.cons_append, List.cons_append, tok_neg (by intro e; rw [e] at h0; cases h0)] at h3
          cases h3
      refine First.head (D' := fun s => (env M).name s = []) f1 ?_ fun c s hs => bind_nil hs
      rw [List.append_assoc]
      refine First.bindH fn ?_
      exact Rd.map (g := fun c : Option Constr => SubInd.mk .none t (c.getD .none)) (Rd.some (Rd.orL (Rd.tok hr (Rd.map (g := Constr.range) f))))
end

end Verif.Vhdl
