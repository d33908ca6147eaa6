import Verif.VhdlIntfRead
/-!
# VHDL: the parser reads type definitions as the LRM says
-/
namespace Verif.Vhdl
open P Verif.Spec Verif.Spec.Lrm

def LTypeDef.Ok : LTypeDef → Prop
  | .enum l => ∀ t, .chr t ∈ l → litOk (.chr t)
  | .range r => rangeOk r
  | .unbounded l e => (∀ n ∈ l, LName.Ok n) ∧ LSub.Ok e
  | .constrained l e => (∀ d ∈ l, LDiscr.Ok d) ∧ LSub.Ok e
  | .record a l _ => ∀ e ∈ a :: l, LSub.Ok e.2

structure MTd {V : Type} (A : Alg V) (t : TypeDef) (x : LTypeDef) : Prop where
  ev : ∀ {S : Type} (B : SAlg V S) (n : Str), evTypeDef A B n t = x.eval A B n
  ok : LTypeDef.Ok x → okTypeDef t

section
variable {V : Type} {A : Alg V} {k M : Nat} (g : Good A k) (hM : 3 * k + 2 < M)

theorem enumLit_rd {x : EnumLit} {w R : List VTok} (h : EnumLit.Tok x w) : Rd None' enumerationLiteral w R x := by
  cases x with
  | ident s => exact Rd.orL (Rd.map (g := EnumLit.ident) (ident_rd h))
  | chr s =>
    obtain ⟨y, rfl, hy, rfl⟩ := h
    refine Rd.orN (bind_nil (or_nil (tok_neg (by rw [hy]; decide) _) (tok_neg (by rw [hy]; decide) _))) ?_
    exact First.map (f := EnumLit.chr) (First.tok hy R)

include g hM

theorem open_rd {n : LName} {w R : List VTok} (h : openToks n w) (hk : w.length ≤ k) : ∃ t, MN A t n ∧ Rd None' (do
    let n ← (env M).name
    let _ ← tok (.kw .RANGE)
    let _ ← tok .BOX
    return n) w R t := by
  obtain ⟨u, _, rfl, hu, v, x, rfl, hv, hx⟩ := h
  simp only [List.length_append] at hk
  obtain ⟨t, m, f⟩ := name_rd g hM hu (R := (v ++ x) ++ R) (by omega) (L := [.kw .RANGE]) (Nx.cat hv (by decide)) (by decide)
  exact ⟨t, m, Rd.bindN f (Rd.tok hv (Rd.last hx))⟩

omit g hM in
/-- A discrete range is no `t range <>`. -/
theorem box_no {d : LDiscr} {w R : List VTok} (h : d.Toks w) (hR : Nx [.COMMA, .RPAREN] R) : (do
    let n ← (env M).name
    let _ ← tok (.kw .RANGE)
    let _ ← tok .BOX
    return n) (w ++ R) = ([] : List (Name × List VTok)) := by
  apply List.eq_nil_iff_forall_not_mem.2
  intro x hx
  obtain ⟨n, r, h1, h2⟩ := mem_bind.1 hx
  obtain ⟨_, r1, h3, h4⟩ := mem_bind.1 h2
  obtain ⟨_, r2, h5, -⟩ := mem_bind.1 h4
  obtain ⟨y, rfl, hy, -⟩ := mem_tok.1 h3
  obtain ⟨z, rfl, hz, -⟩ := mem_tok.1 h5
  have hd : ¬ Dp (y :: z :: r2) := by
    rintro ⟨y', s', e, he⟩
    cases e; rw [hy] at he; cases he
  have only : ∀ {m : LName} {u X : List VTok}, m.Toks u → Nx [.kw .RANGE, .COMMA, .RPAREN] X → w ++ R = u ++ X → y :: z :: r2 = X := by
    intro m u X hu hX e
    rw [e] at h1
    rcases target_only (x := .name m) hu hX (by decide) (M := M) (y := (.name n, _)) (mem_or.2 (.inl (mem_bind.2 ⟨n, _, h1, mem_pure.2 rfl⟩))) with h | h
    · exact h
    · exact (hd h).elim
  cases d with
  | name m =>
    have := only h (hR.mono (by decide)) rfl
    rw [← this] at hR
    obtain ⟨t, e, ht⟩ := hR
    rw [next_cons, hy] at e
    cases e; revert ht; decide
  | range a d b =>
    obtain ⟨wa, _, rfl, ha, wd, wb, rfl, ⟨q, rfl, hq⟩, hb⟩ := h
    rw [show wa ++ ([q] ++ wb) ++ R = wa ++ q :: (wb ++ R) by simp] at h1
    rcases (LSimple.lead a ha).name (dir_closes hq (wb ++ R)) ((ends_env M).name _ _ h1) with ⟨y', s', e, he⟩ | ⟨h, -⟩
    · cases e; rw [hy] at he; rcases he with he | he <;> cases he
    · rw [← (List.cons.inj h).1, hy] at hq
      cases d <;> cases hq
  | sub m a d b =>
    obtain ⟨wn, _, rfl, hn, wr, _, rfl, hr, wa, _, rfl, ha, wd, wb, rfl, hd', hb⟩ := h
    have := only hn (X := (wr ++ (wa ++ (wd ++ wb))) ++ R) (Nx.cat hr (by decide)) (by simp)
    obtain ⟨q, rfl, hq⟩ := hr
    obtain ⟨z', s', e, he⟩ := (LSimple.lead a ha).start
    rw [e] at this
    rw [(List.cons.inj (List.cons.inj this).2).1] at hz
    rw [hz] at he; cases he

omit g hM in
theorem discrs_eq {ts : List Discr} {l : List LDiscr} (h : List.Forall₂ (MD A) ts l) :
    evDiscrs A ts = l.map (LDiscr.eval A) ∧ ((∀ d ∈ l, LDiscr.Ok d) → okDiscrs ts) := by
  induction h with
  | nil => exact ⟨by simp only [evDiscrs, List.map_nil], fun _ => trivial⟩
  | cons h1 _ ih =>
    refine ⟨by simp only [evDiscrs, List.map_cons, h1.ev, ih.1], fun o => ⟨h1.ok (o _ (by simp)), ih.2 fun d hd => o d (by simp [hd])⟩⟩

/-- An element of a record. -/
theorem elem_rd' {e : List Str × LSub} {w R : List VTok} (h : elementToks e w) (hk : w.length ≤ k) :
    ∃ t : List Str × SubInd, (t.1 = e.1 ∧ MSb A t.2 e.2) ∧ Rd None' (elementDeclaration (env M)) w R t := by
  obtain ⟨w0, _, rfl, h0, w1, _, rfl, h1, w2, w3, rfl, h2, h3⟩ := h
  simp only [List.length_append] at hk
  obtain ⟨t, m, f⟩ := sub_rd g hM h2 (R := w3 ++ R) (by omega) ((Nx.one (L := [.SEMI]) h3 (by decide)).closes (by decide))
  refine ⟨(e.1, t), ⟨rfl, m⟩, Rd.bindN (idents_rd h0 ?_) (Rd.tok h1 (Rd.head f (Rd.last h3) fun c s hs => Dead.bind (Dead.tok rfl) s hs))⟩
  obtain ⟨y, rfl, hy⟩ := h1
  rw [List.append_assoc, List.cons_append, next_cons, hy]; decide

theorem typeDef_rd {d b : P Decl} {x : LTypeDef} {w R : List VTok} (h : x.Toks w) (hk : w.length ≤ k) (hR : Nx [.SEMI] R) :
    ∃ t, MTd A t x ∧ Rd Dm (typeDefinition (env M) d b) w R t := by
  have hcl : Closes R := hR.closes (by decide)
  cases x with
  | enum l =>
    obtain ⟨w0, _, rfl, h0, w1, w2, rfl, h1, h2⟩ := h
    obtain ⟨ts, m, f⟩ := sep_rd (p := enumerationLiteral) (T := EnumLit.Tok) (Mx := Eq) (D := None') (C := Nx [.RPAREN]) (k := w1.length)
      (fun R hR => hR.not (by decide)) (fun _ h => h.elim) (fun b u R hb _ _ => ⟨b, rfl, enumLit_rd hb⟩) h1 (Nat.le_refl _)
      (R := w2 ++ R) (Nx.one h2 (by decide))
    rw [List.forall₂_eq_eq_eq] at m
    subst m
    refine ⟨.enum ts, ⟨fun B n => ?_, fun o => o⟩, Rd.orL (Rd.orL (Rd.tok h0 (Rd.bindN f (Rd.last h2))))⟩
    simp only [evTypeDef, LTypeDef.eval]
    rfl
  | range r =>
    obtain ⟨t, ⟨m, o⟩, f⟩ := rng_rd g (M := M) (by omega) h hk hcl
    obtain ⟨w0, w1, rfl, h0, h1⟩ := h
    have hn : Nx [.kw .RANGE] ((w0 ++ w1) ++ R) := Nx.cat h0 (by decide)
    refine ⟨.range t, ⟨fun B n => ?_, o⟩, Rd.orL (Rd.orN (bind_nil (hn.tok (by decide))) (Rd.orL (Rd.map (g := TypeDef.range) f)))⟩
    simp only [evTypeDef, LTypeDef.eval, m]
  | unbounded l e =>
    obtain ⟨w0, _, rfl, h0, w1, _, rfl, h1, w2, _, rfl, h2, w3, _, rfl, h3, w4, w5, rfl, h4, h5⟩ := h
    simp only [List.length_append] at hk
    have hn : Nx [.kw .ARRAY] ((w0 ++ (w1 ++ (w2 ++ (w3 ++ (w4 ++ w5))))) ++ R) := Nx.cat h0 (by decide)
    obtain ⟨t, m, f⟩ := sub_rd g hM h5 (R := R) (by omega) hcl
    obtain ⟨ts, ms, fs⟩ := sep_rd (T := openToks) (Mx := MN A) (D := None') (C := Nx [.RPAREN]) (k := k) (p := (do
        let n ← (env M).name
        let _ ← tok (.kw .RANGE)
        let _ ← tok .BOX
        return n))
      (fun R hR => hR.not (by decide)) (fun _ h => h.elim) (fun b u R hb hk _ => open_rd g hM hb hk) h2 (by omega)
      (R := (w3 ++ (w4 ++ w5)) ++ R) (Nx.cat h3 (by decide))
    refine ⟨.unbounded ts t, ⟨fun B n => ?_, fun o => ⟨?_, m.ok o.2⟩⟩, Rd.orN ?_ (Rd.orL (Rd.orL (Rd.orL
      (Rd.tok h0 (Rd.tok h1 (Rd.bindN fs (Rd.tok h3 (Rd.tok h4 (Rd.map (g := TypeDef.unbounded ts) f)))))))))⟩
    · simp only [evTypeDef, LTypeDef.eval, m.ev]
      congr 1
      exact fall_map (f := fun n => A.bin "range" (evName A n) A.opn) (f' := fun x => A.bin "range" (LName.eval A x) A.opn) (P := MN A) (fun a b h => by rw [h.ev]) ms
    · intro n hn
      obtain ⟨b, hb, hm⟩ := fall_mem ms hn
      exact hm.ok (o.1 b hb)
    · exact or_nil (bind_nil (hn.tok (by decide))) (or_nil (bind_nil (bind_nil (hn.tok (by decide)))) (or_nil (bind_nil (bind_nil (hn.tok (by decide))))
        (bind_nil (bind_nil (hn.tok (by decide))))))
  | constrained l e =>
    obtain ⟨w0, _, rfl, h0, w1, _, rfl, h1, w2, _, rfl, h2, w3, _, rfl, h3, w4, w5, rfl, h4, h5⟩ := h
    simp only [List.length_append] at hk
    have hn : Nx [.kw .ARRAY] ((w0 ++ (w1 ++ (w2 ++ (w3 ++ (w4 ++ w5))))) ++ R) := Nx.cat h0 (by decide)
    obtain ⟨t, m, f⟩ := sub_rd g hM h5 (R := R) (by omega) hcl
    obtain ⟨ts, ms, fs⟩ := sep_rd (T := LDiscr.Toks) (Mx := MD A) (D := Dm) (C := Nx [.RPAREN]) (k := k) (p := discreteRange (env M))
      (fun R hR => hR.not (by decide)) (fun s hs => hs.ne rfl) (fun b u R hb hk hR => discrete_rdm g hM hb hk (Nx.closes (L := [.COMMA, .RPAREN])
        (by rcases hR with h | h; exacts [⟨_, h, by decide⟩, h.mono (by decide)]) (by decide))) h2 (by omega)
      (R := (w3 ++ (w4 ++ w5)) ++ R) (Nx.cat h3 (by decide))
    have de := discrs_eq ms
    refine ⟨.constrained ts t, ⟨fun B n => ?_, fun o => ⟨de.2 o.1, m.ok o.2⟩⟩, Rd.orN ?_ (Rd.orL (Rd.orL (Rd.orN ?_
      (Rd.tok h0 (Rd.tok h1 (Rd.head fs (Rd.tok h3 (Rd.tok h4 (Rd.map (g := TypeDef.constrained ts) f))) fun c s hs => Dead.bind (Dead.tok rfl) s hs))))))⟩
    · simp only [evTypeDef, LTypeDef.eval, m.ev, de.1]
    · exact or_nil (bind_nil (hn.tok (by decide))) (or_nil (bind_nil (bind_nil (hn.tok (by decide)))) (or_nil (bind_nil (bind_nil (hn.tok (by decide))))
        (bind_nil (bind_nil (hn.tok (by decide))))))
    · obtain ⟨z0, rfl, hz0⟩ := h0
      obtain ⟨z1, rfl, hz1⟩ := h1
      cases l with
      | nil => exact h2.elim
      | cons b l =>
        obtain ⟨u, v, rfl, hu, hv⟩ := h2
        have hX : Nx [.COMMA, .RPAREN] (v ++ ((w3 ++ (w4 ++ w5)) ++ R)) := by
          cases l with
          | nil => cases hv; exact Nx.cat h3 (by decide)
          | cons c l =>
            obtain ⟨_, _, rfl, ⟨x, _, rfl, hx, -⟩, -⟩ := hv
            simp only [List.append_assoc]
            exact Nx.one hx (by decide)
        have := box_no (M := M) hu hX
        show unboundedArray (env M) _ = []
        rw [unboundedArray]
        simp only [List.cons_append, List.nil_append, List.append_assoc]
        rw [bind_apply, tok_pos hz0]
        simp only [List.flatMap_cons, List.flatMap_nil, List.append_nil]
        rw [bind_apply, tok_pos hz1]
        simp only [List.flatMap_cons, List.flatMap_nil, List.append_nil]
        refine bind_nil (bind_nil ?_)
        simpa only [List.append_assoc] using this
  | record a l n =>
    obtain ⟨w0, _, rfl, h0, w1, _, rfl, h1, w2, _, rfl, h2, w3, _, rfl, h3, w4, w5, rfl, h4, h5⟩ := h
    simp only [List.length_append] at hk
    have hn : Nx [.kw .RECORD] ((w0 ++ (w1 ++ (w2 ++ (w3 ++ (w4 ++ w5))))) ++ R) := Nx.cat h0 (by decide)
    obtain ⟨ta, ma, fa⟩ := elem_rd' g hM h1 (R := (w2 ++ (w3 ++ (w4 ++ w5))) ++ R) (by omega)
    obtain ⟨ts, ms, fs⟩ := rep_rd (T := elementToks) (Mx := fun (t : List Str × SubInd) e => t.1 = e.1 ∧ MSb A t.2 e.2) (D := None') (C := Nx [.kw .END]) (Q := fun _ => True) (k := k)
      (p := elementDeclaration (env M)) (fun _ h => h.elim) (fun R hR => bind_nil (bind_nil (ident_no hR (by decide) (by decide)))) (fun _ _ => trivial)
      (fun _ _ _ _ => trivial) (fun b u h => by obtain ⟨_, _, rfl, h, -⟩ := h; simp [Sep.ne h fun _ _ h => Ident.ne h])
      (fun b u R hb hk _ => elem_rd' g hM hb hk) h2 (by omega) (R := (w3 ++ (w4 ++ w5)) ++ R) (Nx.cat h3 (by decide))
    have hall := List.Forall₂.cons (R := fun (t : List Str × SubInd) (e : List Str × LSub) => t.1 = e.1 ∧ MSb A t.2 e.2) ma ms
    refine ⟨.record (ta :: ts), ⟨fun B x => ?_, fun o => ?_⟩, Rd.orN ?_ (Rd.orL (Rd.orN (or_nil (bind_nil (hn.tok (by decide))) (bind_nil (hn.tok (by decide))))
      (Rd.tok h0 (Rd.bindN fa (Rd.bindN fs (Rd.tok h3 (Rd.tok h4 (Rd.map (g := fun _ => TypeDef.record (ta :: ts)) (label_rd h5 hR (by decide) (by decide))))))))))⟩
    · simp only [evTypeDef, LTypeDef.eval]
      congr 1
      generalize ta :: ts = as at hall
      generalize a :: l = bs at hall
      clear * - hall
      induction hall with
      | nil => rfl
      | cons h _ ih => simp only [List.flatMap_cons, ih, h.1, h.2.ev]
    · intro p hp
      obtain ⟨b, hb, hm⟩ := fall_mem hall hp
      exact hm.2.ok (o b hb)
    · exact or_nil (bind_nil (hn.tok (by decide))) (or_nil (bind_nil (bind_nil (hn.tok (by decide)))) (or_nil (bind_nil (bind_nil (hn.tok (by decide))))
        (bind_nil (bind_nil (hn.tok (by decide))))))

end
end Verif.Vhdl
