import Verif.VhdlStmRead
/-!
# VHDL sequential statements: statements with statements inside, and the induction over the depth of nesting
-/
namespace Verif.Vhdl
open P Verif.Spec Verif.Spec.Lrm

structure MSq {V : Type} (A : Alg V) (t : Seq) (s : LSeq) : Prop where
  ev : ∀ {S : Type} (B : SAlg V S), evSeq A B t = s.eval A B
  ok : LSeq.Ok s → okSeq t

section
variable {V : Type} {A : Alg V}

theorem seqs_eq {ts : List Seq} {l : List LSeq} (h : List.Forall₂ (MSq A) ts l) :
    (∀ {S : Type} (B : SAlg V S), evSeqs A B ts = seqsEval A B l) ∧ (seqsOk l → okSeqs ts) := by
  induction h with
  | nil => exact ⟨fun B => by simp only [evSeqs, seqsEval], fun _ => trivial⟩
  | cons h _ ih =>
    refine ⟨fun B => by simp only [evSeqs, seqsEval, h.ev, ih.1], fun hk => ?_⟩
    simp only [seqsOk] at hk
    exact ⟨h.ok hk.1, ih.2 hk.2⟩

/-- `elsif` -/
inductive MEl (A : Alg V) : ElsIf → LElsIf → Prop
  | mk {t : Expression} {e : LExpr} {ts : List Seq} {l : List LSeq} (h : ME A t e) (hs : List.Forall₂ (MSq A) ts l) : MEl A (.mk t ts) (.mk e l)

theorem elifs_eq {ts : List ElsIf} {l : List LElsIf} (h : List.Forall₂ (MEl A) ts l) :
    (∀ {S : Type} (B : SAlg V S) (f : Option S), evElsIfs A B ts f = elsIfsEval A B l f) ∧ (elsIfsOk l → okElsIfs ts) := by
  induction h with
  | nil => exact ⟨fun B f => by simp only [evElsIfs, elsIfsEval], fun _ => trivial⟩
  | cons h _ ih =>
    obtain ⟨h1, h2⟩ := h
    refine ⟨fun B f => by simp only [evElsIfs, elsIfsEval, h1.ev, (seqs_eq h2).1, ih.1], fun hk => ?_⟩
    simp only [elsIfsOk] at hk
    exact ⟨h1.ok hk.1, (seqs_eq h2).2 hk.2.1, ih.2 hk.2.2⟩

/-- `else` -/
inductive MEs (A : Alg V) : SeqElse → LElse → Prop
  | none : MEs A .none .none
  | some {ts : List Seq} {l : List LSeq} (hs : List.Forall₂ (MSq A) ts l) : MEs A (.some ts) (.some l)

theorem else_eq {t : SeqElse} {f : LElse} (h : MEs A t f) :
    (∀ {S : Type} (B : SAlg V S), evSeqElse A B t = f.eval A B) ∧ (LElse.Ok f → okSeqElse t) := by
  cases h with
  | none => exact ⟨fun B => by simp only [evSeqElse, LElse.eval], fun _ => trivial⟩
  | some hs => exact ⟨fun B => by simp only [evSeqElse, LElse.eval, (seqs_eq hs).1], fun hk => (seqs_eq hs).2 (by simpa only [LElse.Ok] using hk)⟩

/-- An alternative of a case statement. -/
inductive MAl (A : Alg V) : CaseAlt → LAlt → Prop
  | mk {c : List Choice} {x : LChoices} {ts : List Seq} {l : List LSeq} (h : MCs A c x) (hs : List.Forall₂ (MSq A) ts l) : MAl A (.mk c ts) (.mk x l)

theorem others_eq {c : List Choice} {x : List LChoice} (h : List.Forall₂ (MC A) c x) : (c.filter Choice.isOthers).length = (x.filter LChoice.isOthers).length := by
  induction h with
  | nil => rfl
  | cons h _ ih =>
    rw [List.filter_cons, List.filter_cons, isOthers_eq h]
    split
    · rw [List.length_cons, List.length_cons, ih]
    · exact ih

theorem choices_ok {c : List Choice} {x : List LChoice} (h : List.Forall₂ (MC A) c x) (hx : ∀ y ∈ x, LChoice.Ok y) : okChoices c := by
  induction h with
  | nil => exact trivial
  | cons h _ ih => exact ⟨h.ok (hx _ (by simp)), ih fun y hy => hx y (by simp [hy])⟩

theorem calts_eq {ts : List CaseAlt} {l : List LAlt} (h : List.Forall₂ (MAl A) ts l) :
    (∀ {S : Type} (B : SAlg V S), List.Forall₂ (fun a b => MCs A a.1 b.1 ∧ a.2 = b.2) (evCaseAlts A B ts) (altsEval A B l)) ∧
      (altsOk l → okAlts ts) ∧ nOthers (altChoices ts) = altsOthers l := by
  induction h with
  | nil => exact ⟨fun B => by simp only [evCaseAlts, altsEval]; exact .nil, fun _ => trivial, rfl⟩
  | cons h _ ih =>
    obtain ⟨h1, h2⟩ := h
    refine ⟨fun B => ?_, fun hk => ?_, ?_⟩
    · simp only [evCaseAlts, altsEval, LAlt.eval]
      exact .cons ⟨h1, by rw [(seqs_eq h2).1]⟩ (ih.1 B)
    · simp only [altsOk, LAlt.Ok] at hk
      exact ⟨choices_ok h1 hk.1.1, (seqs_eq h2).2 hk.1.2, ih.2.1 hk.2⟩
    · have e := others_eq h1
      have e' := ih.2.2
      simp only [nOthers] at e'
      simp only [altChoices, altsOthers, nOthers, List.filter_append, List.length_append, e, e']

end

/-- No statement begins with these tokens. -/
theorem stm_no {M : Nat} {stm : P Seq} {R : List VTok} (hR : Nx afterStms R) : seqRule (env M) stm R = [] := by
  have hl : (do let l ← label; let _ ← tok .COLON; return l : P Str) R = [] := NoLab.nil (hR.noLab (by decide) (by decide))
  rw [seqRule, bind_apply, opt_none hl]
  simp only [List.flatMap_cons, List.flatMap_nil, List.append_nil]
  obtain ⟨n1, n2, n3⟩ := assign_no (M := M) hR (by decide)
  refine bind_nil ?_
  exact or_nil (bind_nil (hR.tok (by decide))) (or_nil (bind_nil (hR.tok (by decide))) (or_nil (bind_nil (hR.tok (by decide)))
    (or_nil (bind_nil n1) (or_nil (bind_nil n2) (or_nil n3 (or_nil (bind_nil (hR.tok (by decide))) (or_nil (bind_nil (hR.tok (by decide)))
      (or_nil (loop_no hR (by decide) (by decide) (by decide)) (or_nil (bind_nil (hR.tok (by decide))) (or_nil (bind_nil (hR.tok (by decide)))
        (or_nil (bind_nil (hR.tok (by decide))) (bind_nil (hR.tok (by decide))))))))))))))

theorem seqStm_no {M n : Nat} {R : List VTok} (hR : Nx afterStms R) : seqStm (env M) n R = [] := by
  cases n with
  | zero => rfl
  | succ n => exact stm_no hR

/-- Statements are not empty. -/
theorem LAssign.ne {a : LAssign} {w : List VTok} (h : a.Toks w) : w ≠ [] := by
  rintro rfl
  cases a with
  | wave | force | release | waveCond | forceCond | var | varCond =>
    obtain ⟨wt, _, e, -, wa, _, rfl, ⟨y, rfl, -⟩, -⟩ := h
    simp at e
  | waveSel | forceSel | varSel =>
    obtain ⟨u, _, e, ⟨y, rfl, -⟩, -⟩ := h
    simp at e

theorem LStm.ne {s : LStm} {w : List VTok} (h : s.Toks w) : w ≠ [] := by
  cases s with
  | assign a => simp only [LStm.Toks] at h; exact LAssign.ne h
  | call p args =>
    simp only [LStm.Toks] at h
    obtain ⟨_, _, rfl, -, y, rfl, -⟩ := h
    simp
  | loop it b l =>
    simp only [LStm.Toks] at h
    obtain ⟨_, _, rfl, -, _, _, rfl, ⟨y, rfl, -⟩, -⟩ := h
    simp
  | _ =>
    simp only [LStm.Toks] at h
    obtain ⟨u, _, rfl, ⟨y, rfl, -⟩, -⟩ := h
    simp

theorem LSeq.ne {s : LSeq} {w : List VTok} (h : s.Toks w) : w ≠ [] := by
  cases s with
  | mk l s =>
    simp only [LSeq.Toks] at h
    obtain ⟨u, v, rfl, -, hv⟩ := h
    have := LStm.ne hv
    simp [this]

section
variable {V : Type} {A : Alg V} {k n M : Nat} {stm : P Seq} (g : Good A k) (hM : 3 * k + 2 < M)
  (hno : ∀ R, Nx afterStms R → stm R = [])
  (hst : ∀ s u R, LSeq.Toks s u → u.length ≤ n → ∃ t, MSq A t s ∧ Rd None' stm u R t)
include hno hst

/-- A sequence of statements. -/
theorem seqs_rd {l : List LSeq} {w R : List VTok} (h : seqsToks l w) (hk : w.length ≤ n) (hR : Nx afterStms R) :
    ∃ t, List.Forall₂ (MSq A) t l ∧ Rd None' (many stm) w R t :=
  many_rd (T := LSeq.Toks) (LT := seqsToks) (M := MSq A) (D := None') (C := Nx afterStms) (Q := fun _ => True) (fun _ h => h.elim) hno (fun _ _ => trivial)
    (fun w h => by simp only [seqsToks] at h; exact h) (fun b l w h => by simp only [seqsToks] at h; exact h) (fun _ _ _ _ => trivial) (fun _ _ h => LSeq.ne h)
    (fun b u R hb hk _ => hst b u R hb hk) l w h hk R hR

omit hno hst in
/-- The end of a statement. -/
theorem end_nx {K : Kw} {q : Bool} {l : Option Str} {w R : List VTok} (h : endToks K q l w) : Nx [.kw .END] (w ++ R) := by
  obtain ⟨u, v, rfl, hu, -⟩ := h
  exact Nx.cat hu (by decide)

omit hno hst in
theorem else_nx {f : LElse} {K : Kw} {q : Bool} {l : Option Str} {wf w R : List VTok} (hf : f.Toks wf) (h : endToks K q l w) :
    Nx [.kw .ELSE, .kw .END] ((wf ++ w) ++ R) := by
  cases f with
  | none =>
    simp only [LElse.Toks] at hf
    cases hf
    exact (end_nx h).mono (by decide)
  | some l =>
    simp only [LElse.Toks] at hf
    obtain ⟨u, v, rfl, hu, -⟩ := hf
    rw [List.append_assoc u]
    exact Nx.cat hu (by decide)

omit hno hst in
theorem elifs_nx {L : List VT} {el : List LElsIf} {wf R : List VTok} (hf : elsIfsToks el wf) (h : Nx L R) (hL : VT.kw .ELSIF ∈ L) : Nx L (wf ++ R) := by
  cases el with
  | nil =>
    simp only [elsIfsToks] at hf
    cases hf
    exact h
  | cons e el =>
    cases e with
    | mk c l =>
      simp only [elsIfsToks] at hf
      obtain ⟨u, v, rfl, hu, -⟩ := hf
      exact Nx.cat hu hL

include g hM

theorem if_kind {c : LExpr} {t : List LSeq} {el : List LElsIf} {f : LElse} {l : Option Str} {w R : List VTok} (h : (LStm.if_ c t el f l).Toks w)
    (hk : w.length ≤ k) (hn : w.length ≤ n + 1) : ∃ x, MK A x (.if_ c t el f l) ∧ NoLab (w ++ R) ∧ Rd None' (seqKind (env M) stm) w R x := by
  simp only [LStm.Toks] at h
  obtain ⟨w0, _, rfl, h0, w1, _, rfl, h1, w2, _, rfl, h2, w3, _, rfl, h3, w4, _, rfl, h4, w5, _, rfl, h5, he⟩ := h
  have he' := he
  obtain ⟨w6, _, rfl, h6, w7, _, rfl, h7, _, _, rfl, rfl, w8, w9, rfl, h8, h9⟩ := he
  have l0 : w0.length = 1 := by obtain ⟨y, rfl, -⟩ := h0; rfl
  simp only [List.length_append, List.nil_append] at hk hn
  have n1 : Nx [.kw .ELSE, .kw .END] ((w5 ++ (w6 ++ (w7 ++ ([] ++ (w8 ++ w9))))) ++ R) := else_nx h5 he'
  have n2 : Nx [.kw .ELSIF, .kw .ELSE, .kw .END] ((w4 ++ (w5 ++ (w6 ++ (w7 ++ ([] ++ (w8 ++ w9)))))) ++ R) := Nx.assoc (elifs_nx h4 (n1.mono (by decide)) (by decide))
  obtain ⟨t1, m1, f1⟩ := expr_rd g hM h1 (R := (w2 ++ (w3 ++ (w4 ++ (w5 ++ (w6 ++ (w7 ++ ([] ++ (w8 ++ w9)))))))) ++ R) (by omega)
    (Nx.mono (L := [.kw .THEN]) (Nx.cat h2 (by decide)) (by decide))
  obtain ⟨t3, m3, f3⟩ := seqs_rd hno hst h3 (by omega) (n2.mono (by decide))
  obtain ⟨t4, m4, f4⟩ := many_rd (p := (do
      let _ ← tok (.kw .ELSIF)
      let c ← (env M).expression 0
      let _ ← tok (.kw .THEN)
      let l ← many stm
      return .mk c l : P ElsIf)) (T := fun e => elsIfsToks [e]) (LT := elsIfsToks) (M := MEl A) (D := None') (C := Nx [.kw .ELSE, .kw .END])
    (Q := Nx [.kw .ELSIF, .kw .ELSE, .kw .END]) (k := w4.length) (fun _ h => h.elim) (fun R hR => bind_nil (hR.tok (by decide))) (fun R hR => hR.mono (by decide))
    (fun w h => by simp only [elsIfsToks] at h; exact h)
    (fun b l w h => by
      cases b with
      | mk c b =>
        simp only [elsIfsToks] at h ⊢
        obtain ⟨u0, _, rfl, g0, u1, _, rfl, g1, u2, _, rfl, g2, u3, u4, rfl, g3, g4⟩ := h
        exact ⟨u0 ++ (u1 ++ (u2 ++ (u3 ++ []))), u4, by simp, ⟨u0, _, rfl, g0, u1, _, rfl, g1, u2, _, rfl, g2, u3, [], rfl, g3, rfl⟩, g4⟩)
    (fun b u R h => by
      cases b with
      | mk c b =>
        simp only [elsIfsToks] at h
        obtain ⟨u0, _, rfl, g0, -⟩ := h
        exact Nx.cat g0 (by decide))
    (fun b u h => by
      cases b with
      | mk c b =>
        simp only [elsIfsToks] at h
        obtain ⟨u0, _, rfl, ⟨y, rfl, -⟩, -⟩ := h
        simp)
    (fun b u R h hku hR => by
      cases b with
      | mk c b =>
        simp only [elsIfsToks] at h
        obtain ⟨u0, _, rfl, g0, u1, _, rfl, g1, u2, _, rfl, g2, u3, _, rfl, g3, rfl⟩ := h
        simp only [List.length_append, List.length_nil] at hku
        rw [List.append_nil]
        obtain ⟨t1, m1, f1⟩ := expr_rd g hM g1 (R := (u2 ++ u3) ++ R) (by omega) (Nx.mono (L := [.kw .THEN]) (Nx.cat g2 (by decide)) (by decide))
        obtain ⟨t3, m3, f3⟩ := seqs_rd hno hst g3 (R := R) (by omega) (hR.mono (by decide))
        exact ⟨.mk t1 t3, .mk m1 m3, Rd.tok g0 (Rd.head f1 (Rd.tok g2 (Rd.map (g := ElsIf.mk t1) f3)) fun _ => Kill.tok rfl)⟩)
    el w4 h4 (Nat.le_refl _) _ n1
  have : ∃ t5, MEs A t5 f ∧ Rd None' (alts [
      tok (.kw .ELSE) >>= fun _ => many stm >>= fun l => pure (.some l),
      pure .none,
      notNext (.kw .ELSE) >>= fun _ => pure .none]) w5 ((w6 ++ (w7 ++ ([] ++ (w8 ++ w9)))) ++ R) t5 := by
    have n0 : Nx [.kw .END] ((w6 ++ (w7 ++ ([] ++ (w8 ++ w9)))) ++ R) := Nx.cat h6 (by decide)
    cases f with
    | none =>
      simp only [LElse.Toks] at h5
      cases h5
      exact ⟨.none, .none, Rd.orN (bind_nil (n0.tok (by decide))) (Rd.orL (Rd.ret _))⟩
    | some b =>
      simp only [LElse.Toks] at h5
      obtain ⟨u, v, rfl, hu, hv⟩ := h5
      simp only [List.length_append] at hn
      obtain ⟨t, m, f⟩ := seqs_rd hno hst hv (by omega) (n0.mono (by decide))
      exact ⟨.some t, .some m, Rd.orL (Rd.tok hu (Rd.map (g := SeqElse.some) f))⟩
  obtain ⟨t5, m5, f5⟩ := this
  have hx : Nx [.kw .IF] ((w0 ++ (w1 ++ (w2 ++ (w3 ++ (w4 ++ (w5 ++ (w6 ++ (w7 ++ ([] ++ (w8 ++ w9)))))))))) ++ R) := Nx.cat h0 (by decide)
  refine ⟨.if_ t1 t3 t4 t5 l, ⟨fun B => ?_, fun h => ?_, rfl⟩, hx.noLab (by decide) (by decide), pre_no hx (by decide) (by decide) (by decide) (by decide) rfl
    (Rd.orL ?_)⟩
  · simp only [evSeqKind, LStm.eval, m1.ev, (seqs_eq m3).1, (elifs_eq m4).1, (else_eq m5).1]
  · simp only [LStm.Ok] at h
    exact ⟨m1.ok h.1, (seqs_eq m3).2 h.2.1, (elifs_eq m4).2 h.2.2.1, (else_eq m5).2 h.2.2.2⟩
  · exact Rd.tok h0 (Rd.head f1 (Rd.tok h2 (Rd.bindN f3 (Rd.bindN f4 (Rd.bindN f5 (Rd.tok h6 (Rd.tok h7
      (by rw [List.nil_append]; exact Rd.bindN (label_rd h8 (L := [.SEMI]) (Nx.one h9 (by decide)) (by decide) (by decide)) (Rd.last h9)))))))) fun _ => Kill.tok rfl)

theorem loop_kind {it : LIter} {b : List LSeq} {l : Option Str} {w R : List VTok} (h : (LStm.loop it b l).Toks w)
    (hk : w.length ≤ k) (hn : w.length ≤ n + 1) : ∃ x, MK A x (.loop it b l) ∧ NoLab (w ++ R) ∧ Rd None' (seqKind (env M) stm) w R x := by
  simp only [LStm.Toks] at h
  obtain ⟨w0, _, rfl, h0, w1, _, rfl, h1, w2, _, rfl, h2, he⟩ := h
  have he' := he
  obtain ⟨w6, _, rfl, h6, w7, _, rfl, h7, _, _, rfl, rfl, w8, w9, rfl, h8, h9⟩ := he
  have l0 : w1.length = 1 := by obtain ⟨y, rfl, -⟩ := h1; rfl
  simp only [List.length_append, List.nil_append] at hk hn
  have n1 : Nx [.kw .LOOP] ((w1 ++ (w2 ++ (w6 ++ (w7 ++ ([] ++ (w8 ++ w9)))))) ++ R) := Nx.cat h1 (by decide)
  obtain ⟨t0, m0, f0⟩ := iter_rd g hM h0 (by omega) n1
  obtain ⟨t2, m2, f2⟩ := seqs_rd hno hst h2 (by omega) ((end_nx he').mono (by decide))
  have hx : Nx [.kw .WHILE, .kw .FOR, .kw .LOOP] ((w0 ++ (w1 ++ (w2 ++ (w6 ++ (w7 ++ ([] ++ (w8 ++ w9))))))) ++ R) := by
    cases it with
    | forever =>
      simp only [LIter.Toks] at h0
      cases h0
      exact n1.mono (by decide)
    | while_ c =>
      obtain ⟨u, v, rfl, hu, -⟩ := h0
      rw [List.append_assoc u]
      exact Nx.cat hu (by decide)
    | for_ i d =>
      obtain ⟨u, v, rfl, hu, -⟩ := h0
      rw [List.append_assoc u]
      exact Nx.cat hu (by decide)
  refine ⟨.loop (t0.getD .forever) t2 l, ⟨fun B => ?_, fun h => ?_, rfl⟩, hx.noLab (by decide) (by decide), pre_no hx (by decide) (by decide) (by decide) (by decide) rfl
    (Rd.orN (bind_nil (hx.tok (by decide))) (Rd.orN (bind_nil (hx.tok (by decide))) (Rd.orL ?_)))⟩
  · simp only [evSeqKind, LStm.eval, m0.ev, (seqs_eq m2).1]
  · simp only [LStm.Ok] at h
    exact ⟨m0.ok h.1, (seqs_eq m2).2 h.2⟩
  · exact Rd.head f0 (Rd.tok h1 (Rd.bindN f2 (Rd.tok h6 (Rd.tok h7
      (by rw [List.nil_append]; exact Rd.bindN (label_rd h8 (L := [.SEMI]) (Nx.one h9 (by decide)) (by decide) (by decide)) (Rd.last h9)))))) fun _ s hs => bind_nil (tok_next hs)

theorem alt_rd {a : LAlt} {w R : List VTok} (h : a.Toks w) (hk : w.length ≤ k) (hn : w.length ≤ n + 1) (hR : Nx [.kw .WHEN, .kw .END] R) :
    ∃ t, MAl A t a ∧ Rd None' (caseAlternative (env M) stm) w R t := by
  cases a with
  | mk c b =>
    simp only [LAlt.Toks] at h
    obtain ⟨u0, _, rfl, g0, u1, _, rfl, g1, u2, u3, rfl, g2, g3⟩ := h
    have l0 : u0.length = 1 := by obtain ⟨y, rfl, -⟩ := g0; rfl
    simp only [List.length_append] at hk hn
    obtain ⟨t1, m1, f1⟩ := choices_rd g hM g1 (R := (u2 ++ u3) ++ R) (by omega) (Nx.cat g2 (by decide))
    obtain ⟨t3, m3, f3⟩ := seqs_rd hno hst g3 (R := R) (by omega) (hR.mono (by decide))
    exact ⟨.mk t1 t3, .mk m1 m3, Rd.tok g0 (Rd.head f1 (Rd.tok g2 (Rd.map (g := CaseAlt.mk t1) f3)) fun _ s hs => bind_nil (dch_tok hs (by decide)))⟩

theorem case_kind {q : Bool} {e : LExpr} {a : LAlt} {m : List LAlt} {l : Option Str} {w R : List VTok} (h : (LStm.case_ q e a m l).Toks w)
    (hk : w.length ≤ k) (hn : w.length ≤ n + 1) : ∃ x, MK A x (.case_ q e a m l) ∧ NoLab (w ++ R) ∧ Rd None' (seqKind (env M) stm) w R x := by
  simp only [LStm.Toks] at h
  obtain ⟨w0, _, rfl, h0, w1, _, rfl, h1, w2, _, rfl, h2, w3, _, rfl, h3, w4, _, rfl, h4, w5, _, rfl, h5, he⟩ := h
  have he' := he
  obtain ⟨w6, _, rfl, h6, w7, _, rfl, h7, wq, _, rfl, hq, w8, w9, rfl, h8, h9⟩ := he
  have l0 : w0.length = 1 := by obtain ⟨y, rfl, -⟩ := h0; rfl
  simp only [List.length_append] at hk hn
  have n1 : Nx [.kw .END] ((w6 ++ (w7 ++ (wq ++ (w8 ++ w9)))) ++ R) := end_nx he'
  obtain ⟨t2, m2, f2⟩ := expr_rd g hM h2 (R := (w3 ++ (w4 ++ (w5 ++ (w6 ++ (w7 ++ (wq ++ (w8 ++ w9))))))) ++ R) (by omega)
    (Nx.mono (L := [.kw .IS]) (Nx.cat h3 (by decide)) (by decide))
  have n2 : Nx [.kw .WHEN, .kw .END] ((w5 ++ (w6 ++ (w7 ++ (wq ++ (w8 ++ w9))))) ++ R) := by
    cases m with
    | nil =>
      simp only [altsToks] at h5
      cases h5
      exact n1.mono (by decide)
    | cons b m =>
      cases b with
      | mk c b =>
        simp only [altsToks, LAlt.Toks] at h5
        obtain ⟨_, _, rfl, ⟨u, v, rfl, hu, -⟩, -⟩ := h5
        rw [List.append_assoc, List.append_assoc u]
        exact Nx.cat hu (by decide)
  obtain ⟨t4, m4, f4⟩ := alt_rd g hM hno hst h4 (by omega) (by omega) n2
  obtain ⟨t5, m5, f5⟩ := many_rd (p := caseAlternative (env M) stm) (T := LAlt.Toks) (LT := altsToks) (M := MAl A) (D := None') (C := Nx [.kw .END])
    (Q := Nx [.kw .WHEN, .kw .END]) (k := w5.length) (fun _ h => h.elim) (fun R hR => bind_nil (hR.tok (by decide))) (fun R hR => hR.mono (by decide))
    (fun w h => by simp only [altsToks] at h; exact h) (fun b l w h => by simp only [altsToks] at h; exact h)
    (fun b u R h => by
      cases b with
      | mk c b =>
        simp only [LAlt.Toks] at h
        obtain ⟨u0, _, rfl, g0, -⟩ := h
        exact Nx.cat g0 (by decide))
    (fun b u h => by
      cases b with
      | mk c b =>
        simp only [LAlt.Toks] at h
        obtain ⟨u0, _, rfl, ⟨y, rfl, -⟩, -⟩ := h
        simp)
    (fun b u R h hku hR => alt_rd g hM hno hst h (by omega) (by omega) hR)
    m w5 h5 (Nat.le_refl _) _ n1
  have m45 := calts_eq (.cons m4 m5)
  have hx : Nx [.kw .CASE] ((w0 ++ (w1 ++ (w2 ++ (w3 ++ (w4 ++ (w5 ++ (w6 ++ (w7 ++ (wq ++ (w8 ++ w9)))))))))) ++ R) := Nx.cat h0 (by decide)
  refine ⟨.case_ q t2 (t4 :: t5) l, ⟨fun B => ?_, fun h => ?_, rfl⟩, hx.noLab (by decide) (by decide), pre_no hx (by decide) (by decide) (by decide) (by decide) rfl
    (Rd.orN (bind_nil (hx.tok (by decide))) (Rd.orL ?_))⟩
  · have e := alts_eq (m45.1 B)
    simp only [altsEval] at e
    simp only [evSeqKind, LStm.eval, m2.ev, e.1, e.2]
  · simp only [LStm.Ok] at h
    exact ⟨h.1, m2.ok h.2.1, m45.2.1 ⟨h.2.2.1, h.2.2.2.1⟩, by rw [m45.2.2]; exact h.2.2.2.2⟩
  · have n8 : Nx [.BASIC_IDENTIFIER, .EXTENDED_IDENTIFIER, .SEMI] ((w8 ++ w9) ++ R) := by
      cases l with
      | none =>
        cases h8
        exact Nx.one h9 (by decide)
      | some l =>
        obtain ⟨y, rfl, hy, -⟩ := h8
        rcases hy with hy | hy <;> exact ⟨y.ty, rfl, by rw [hy]; decide⟩
    have fq : ∃ o, Rd None' (opt (tok .QUESTIONMARK)) wq ((w8 ++ w9) ++ R) o := by
      cases q with
      | false =>
        cases hq
        exact ⟨none, Rd.none (n8.tok (by decide))⟩
      | true =>
        obtain ⟨y, rfl, hy⟩ := hq
        exact ⟨some y.text, Rd.some (First.tok hy _)⟩
    obtain ⟨o, fq⟩ := fq
    exact Rd.tok h0 (Rd.bindN (flag_rd h1 (by rw [List.append_assoc]; exact LExpr.ne h2 rfl)) (Rd.head f2 (Rd.tok h3 (Rd.bindN f4 (Rd.bindN f5 (Rd.tok h6 (Rd.tok h7 (Rd.bindN fq
      (Rd.bindN (label_rd h8 (L := [.SEMI]) (Nx.one h9 (by decide)) (by decide) (by decide)) (Rd.last h9)))))))) fun _ => Kill.tok rfl))

theorem seqRule_rd {s : LSeq} {w R : List VTok} (h : s.Toks w) (hk : w.length ≤ k) (hn : w.length ≤ n + 1) :
    ∃ t, MSq A t s ∧ Rd None' (seqRule (env M) stm) w R t := by
  cases s with
  | mk l s =>
    simp only [LSeq.Toks] at h
    obtain ⟨u, v, rfl, hu, hv⟩ := h
    simp only [List.length_append] at hk hn
    have key : ∃ t, MK A t s ∧ NoLab (v ++ R) ∧ Rd None' (seqKind (env M) stm) v R t := by
      cases s with
      | wait => exact wait_kind g hM hv (by omega)
      | assert_ => exact assert_kind g hM hv (by omega)
      | report => exact report_kind g hM hv (by omega)
      | assign => exact assign_kind g hM (by simpa only [LStm.Toks] using hv) (by omega)
      | call => exact call_kind g hM hv (by omega)
      | if_ => exact if_kind g hM hno hst hv (by omega) (by omega)
      | case_ => exact case_kind g hM hno hst hv (by omega) (by omega)
      | loop => exact loop_kind g hM hno hst hv (by omega) (by omega)
      | next => exact next_kind g hM hv (by omega)
      | exit => exact exit_kind g hM hv (by omega)
      | ret => exact ret_kind g hM hv (by omega)
      | null_ => exact null_kind hv
    obtain ⟨t, m, hl, f⟩ := key
    refine ⟨.mk l t, ⟨fun B => ?_, fun h => ?_⟩, ?_⟩
    · cases l <;> simp only [evSeq, evLabel, LSeq.eval, m.ev]
    · simp only [LSeq.Ok] at h
      exact ⟨m.ok h.1, by rw [m.lab]; exact h.2⟩
    · have f0 : Rd None' (opt (do let l ← label; let _ ← tok .COLON; return l : P Str)) u (v ++ R) l := by
        cases l with
        | none =>
          cases hu
          exact Rd.none (NoLab.nil hl)
        | some l =>
          obtain ⟨u1, u2, rfl, h1, h2⟩ := hu
          exact Rd.some (Rd.bindN (ident_rd h1) (Rd.last h2))
      exact Rd.bindN f0 (Rd.map (g := Seq.mk l) f)

end

/-- Every statement of the LRM is read as such. -/
theorem seqStm_rd {V : Type} {A : Alg V} {k M : Nat} (g : Good A k) (hM : 3 * k + 2 < M) : ∀ (n : Nat) (s : LSeq) (w R : List VTok), s.Toks w →
    w.length ≤ k → w.length ≤ n → ∃ t, MSq A t s ∧ Rd None' (seqStm (env M) n) w R t
  | 0, s, w, R, h, _, hn => (LSeq.ne h (List.eq_nil_of_length_eq_zero (by omega))).elim
  | n + 1, s, w, R, h, hk, hn => by
    have := seqRule_rd (n := min n k) g hM (stm := seqStm (env M) n) (fun R hR => seqStm_no hR)
      (fun s u R hs hu => seqStm_rd g hM n s u R hs (by omega) (by omega)) h hk (R := R) 
    exact this (by omega)

end Verif.Vhdl
