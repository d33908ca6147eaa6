import Verif.VhdlAssignGood
/-!
# VHDL sequential statements: the statements without statements inside, and loop parameters
-/
namespace Verif.Vhdl
open P Verif.Spec Verif.Spec.Lrm

/-! ## Labels -/

theorem ident_rd {D : List VTok → Prop} {s : Str} {w R : List VTok} (h : Ident s w) : Rd D identifier w R s := by
  obtain ⟨y, rfl, h, rfl⟩ := h
  rcases h with h | h
  · exact Rd.orL (First.tok h R)
  · exact Rd.orN (tok_neg (by rw [h]; decide) _) (First.tok h R)

theorem ident_no {L : List VT} {R : List VTok} (hR : Nx L R) (h1 : VT.BASIC_IDENTIFIER ∉ L) (h2 : VT.EXTENDED_IDENTIFIER ∉ L) : identifier R = [] :=
  or_nil (hR.tok h1) (hR.tok h2)

/-- A label, if it is there. -/
theorem label_rd {D : List VTok → Prop} {l : Option Str} {w R : List VTok} (h : Opt' Ident l w) {L : List VT} (hR : Nx L R)
    (h1 : VT.BASIC_IDENTIFIER ∉ L) (h2 : VT.EXTENDED_IDENTIFIER ∉ L) : Rd D (opt label) w R l := by
  cases l with
  | none => cases h; exact Rd.none (ident_no hR h1 h2)
  | some l => exact Rd.some (ident_rd h)

/-- No label. -/
def NoLab (ts : List VTok) : Prop := ∀ y s, ts = y :: s → (y.ty = .BASIC_IDENTIFIER ∨ y.ty = .EXTENDED_IDENTIFIER) → next s ≠ some .COLON

theorem NoLab.nil {ts : List VTok} (h : NoLab ts) {f : Str → Str → P Str} : (label >>= fun l => tok .COLON >>= f l) ts = [] := by
  apply List.eq_nil_iff_forall_not_mem.2
  intro x hx
  obtain ⟨a, r, h1, h2⟩ := mem_bind.1 hx
  obtain ⟨b, r', h3, -⟩ := mem_bind.1 h2
  have : ∃ y, ts = y :: r ∧ (y.ty = .BASIC_IDENTIFIER ∨ y.ty = .EXTENDED_IDENTIFIER) := by
    rcases mem_or.1 h1 with h1 | h1
    · obtain ⟨y, e, hy, -⟩ := mem_tok.1 h1
      exact ⟨y, e, .inl hy⟩
    · obtain ⟨y, e, hy, -⟩ := mem_tok.1 h1
      exact ⟨y, e, .inr hy⟩
  obtain ⟨y, e, hy⟩ := this
  have hn := h y r e hy
  rw [tok_next hn] at h3
  cases h3

theorem Nx.noLab {L : List VT} {R : List VTok} (h : Nx L R) (h1 : VT.BASIC_IDENTIFIER ∉ L) (h2 : VT.EXTENDED_IDENTIFIER ∉ L) : NoLab R := by
  rintro y s rfl hy
  obtain ⟨t, e, ht⟩ := h
  cases e
  rcases hy with hy | hy <;> rw [hy] at ht <;> contradiction

/-- The second token of a name. -/
theorem LName.second : ∀ (n : LName) {w : List VTok}, n.Toks w → ∃ y s, w = y :: s ∧ (s = [] ∨ ∃ z s', s = z :: s' ∧ partStart z.ty = true)
  | .lit _, w, h => by
    simp only [LName.Toks] at h
    obtain ⟨y, rfl, -⟩ := h
    exact ⟨y, [], rfl, .inl rfl⟩
  | .sel n s, w, h => by
    simp only [LName.Toks] at h
    obtain ⟨u, _, rfl, hu, _, v, rfl, ⟨a, rfl, ha⟩, -⟩ := h
    obtain ⟨y, s, rfl, hs⟩ := LName.second n hu
    refine ⟨y, _, rfl, .inr ?_⟩
    rcases hs with rfl | ⟨z, s', rfl, hz⟩
    · exact ⟨a, _, rfl, by rw [ha]; rfl⟩
    · exact ⟨z, _, rfl, hz⟩
  | .attr n s, w, h => by
    simp only [LName.Toks] at h
    obtain ⟨u, _, rfl, hu, _, v, rfl, ⟨a, rfl, ha⟩, -⟩ := h
    obtain ⟨y, s, rfl, hs⟩ := LName.second n hu
    refine ⟨y, _, rfl, .inr ?_⟩
    rcases hs with rfl | ⟨z, s', rfl, hz⟩
    · exact ⟨a, _, rfl, by rw [ha]; rfl⟩
    · exact ⟨z, _, rfl, hz⟩
  | .call n x l, w, h => by
    simp only [LName.Toks] at h
    obtain ⟨u, _, rfl, hu, _, v, rfl, ⟨a, rfl, ha⟩, -⟩ := h
    obtain ⟨y, s, rfl, hs⟩ := LName.second n hu
    refine ⟨y, _, rfl, .inr ?_⟩
    rcases hs with rfl | ⟨z, s', rfl, hz⟩
    · exact ⟨a, _, rfl, by rw [ha]; rfl⟩
    · exact ⟨z, _, rfl, hz⟩
  | .slice n x d b, w, h => by
    simp only [LName.Toks] at h
    obtain ⟨u, _, rfl, hu, _, v, rfl, ⟨a, rfl, ha⟩, -⟩ := h
    obtain ⟨y, s, rfl, hs⟩ := LName.second n hu
    refine ⟨y, _, rfl, .inr ?_⟩
    rcases hs with rfl | ⟨z, s', rfl, hz⟩
    · exact ⟨a, _, rfl, by rw [ha]; rfl⟩
    · exact ⟨z, _, rfl, hz⟩

theorem LName.noLab {n : LName} {w R : List VTok} (h : n.Toks w) (hR : next R ≠ some .COLON) : NoLab (w ++ R) := by
  obtain ⟨y, s, rfl, hs⟩ := LName.second n h
  intro y' s' e _
  cases e
  rcases hs with rfl | ⟨z, s', rfl, hz⟩
  · exact hR
  · intro e
    have e : some z.ty = some VT.COLON := e
    rw [Option.some.inj e] at hz; cases hz

theorem LTarget.noLab {x : LTarget} {w R : List VTok} (h : x.Toks w) (hR : next R ≠ some .COLON) : NoLab (w ++ R) := by
  cases x with
  | name n => exact LName.noLab h hR
  | agg e l =>
    obtain ⟨u, v, rfl, hu, -⟩ := h
    exact Nx.noLab (L := [.LPAREN]) (Nx.cat hu (by decide)) (by decide) (by decide)

theorem One.ne {t t' : VT} {u R : List VTok} (h : One t u) (hn : t ≠ t') : next (u ++ R) ≠ some t' := by
  obtain ⟨y, rfl, hy⟩ := h
  rw [List.cons_append, next_cons, hy]
  exact fun e => hn (Option.some.inj e)

/-- The beginning of an assignment. -/
theorem LAssign.start {a : LAssign} {w : List VTok} (h : a.Toks w) (R : List VTok) :
    NoLab (w ++ R) ∧ ∀ t, nameStart t = false → t ≠ .LPAREN → t ≠ .kw .WITH → next (w ++ R) ≠ some t := by
  have h1 : ∀ {x : LTarget} {wt wa v : List VTok}, x.Toks wt → One .CONASGN wa → NoLab (wt ++ (wa ++ v) ++ R) ∧
      ∀ t, nameStart t = false → t ≠ .LPAREN → t ≠ .kw .WITH → next (wt ++ (wa ++ v) ++ R) ≠ some t := fun hx ha => by
    rw [List.append_assoc, List.append_assoc]
    exact ⟨LTarget.noLab hx (One.ne ha (by decide)), fun t h1 h2 _ => LTarget.ne hx h1 h2⟩
  have h2 : ∀ {x : LTarget} {wt wa v : List VTok}, x.Toks wt → One .VARASGN wa → NoLab (wt ++ (wa ++ v) ++ R) ∧
      ∀ t, nameStart t = false → t ≠ .LPAREN → t ≠ .kw .WITH → next (wt ++ (wa ++ v) ++ R) ≠ some t := fun hx ha => by
    rw [List.append_assoc, List.append_assoc]
    exact ⟨LTarget.noLab hx (One.ne ha (by decide)), fun t h1 h2 _ => LTarget.ne hx h1 h2⟩
  have h3 : ∀ {u v : List VTok}, Word .WITH u → NoLab (u ++ v ++ R) ∧
      ∀ t, nameStart t = false → t ≠ .LPAREN → t ≠ .kw .WITH → next (u ++ v ++ R) ≠ some t := fun {u v} hu => by
    have hn : Nx [.kw .WITH] (u ++ v ++ R) := Nx.cat hu (by decide)
    exact ⟨hn.noLab (by decide) (by decide), fun t _ _ h => hn.not (by simpa using h)⟩
  cases a with
  | wave | force | release | waveCond | forceCond => obtain ⟨wt, _, rfl, ht, wa, _, rfl, ha, -⟩ := h; exact h1 ht ha
  | var | varCond => obtain ⟨wt, _, rfl, ht, wa, _, rfl, ha, -⟩ := h; exact h2 ht ha
  | waveSel | forceSel | varSel => obtain ⟨u, _, rfl, hu, -⟩ := h; exact h3 hu

/-! ## The supported fragment -/

/-- The label behind `end`. -/
def LStm.endLabel : LStm → Option Str
  | .if_ _ _ _ _ l => l
  | .case_ _ _ _ _ l => l
  | .loop _ _ l => l
  | _ => none

/-- The number of choices `others`. -/
def altsOthers : List LAlt → Nat
  | [] => 0
  | .mk c _ :: r => (c.list.filter LChoice.isOthers).length + altsOthers r

mutual
/-- The statements of which the AST keeps the meaning (compare `okSeq`): a label behind `end` is the label of the statement, a `wait` has a literal
time, there is no `severity` without `report`, no `case?`, `others` at most once, and no call of a procedure `assert`, `report`, `NEXT`, `EXIT`;
assignments and expressions are in their fragments. -/
def LSeq.Ok : LSeq → Prop
  | .mk l s => LStm.Ok s ∧ (LStm.endLabel s = none ∨ LStm.endLabel s = l)
def seqsOk : List LSeq → Prop
  | [] => True
  | s :: l => LSeq.Ok s ∧ seqsOk l
def LStm.Ok : LStm → Prop
  | .wait on u f => (∀ n ∈ on, LName.Ok n) ∧ optOk u ∧ optOk f ∧ ∀ e, f = some e → LExpr.isTime e
  | .assert_ c r s => LExpr.Ok c ∧ optOk r ∧ optOk s ∧ (r = none → s = none)
  | .report e s => LExpr.Ok e ∧ optOk s
  | .assign a => LAssign.Ok a
  | .call p args => LName.Ok p ∧ argsOk args ∧ ∀ s ∈ [c! "assert", c! "report", c! "NEXT", c! "EXIT"], LName.litOf p ≠ some (.ident s)
  | .if_ c t el f _ => LExpr.Ok c ∧ seqsOk t ∧ elsIfsOk el ∧ LElse.Ok f
  | .case_ q e a m _ => q = false ∧ LExpr.Ok e ∧ LAlt.Ok a ∧ altsOk m ∧ altsOthers (a :: m) ≤ 1
  | .loop it b _ => LIter.Ok it ∧ seqsOk b
  | .next _ c => optOk c
  | .exit _ c => optOk c
  | .ret e => optOk e
  | .null_ => True
def elsIfsOk : List LElsIf → Prop
  | [] => True
  | .mk c l :: r => LExpr.Ok c ∧ seqsOk l ∧ elsIfsOk r
def LElse.Ok : LElse → Prop
  | .none => True
  | .some l => seqsOk l
def LAlt.Ok : LAlt → Prop
  | .mk c l => (∀ x ∈ c.list, LChoice.Ok x) ∧ seqsOk l
def altsOk : List LAlt → Prop
  | [] => True
  | a :: r => LAlt.Ok a ∧ altsOk r
end

/-- A statement. -/
structure MK {V : Type} (A : Alg V) (t : SeqKind) (s : LStm) : Prop where
  ev : ∀ {S : Type} (B : SAlg V S), evSeqKind A B t = s.eval A B
  ok : LStm.Ok s → okSeqKind t
  lab : t.endLabel = LStm.endLabel s

section
variable {M : Nat} {stm : P Seq}

theorem loop_no {L : List VT} {R : List VTok} (h : Nx L R) (h1 : VT.kw .WHILE ∉ L) (h2 : VT.kw .FOR ∉ L) (h3 : VT.kw .LOOP ∉ L) :
    loopStatement (env M) stm R = [] := by
  have e : iterationScheme (env M) R = [] := or_nil (bind_nil (h.tok h1)) (bind_nil (h.tok h2))
  rw [loopStatement, bind_apply, opt_none e]
  simp only [List.flatMap_cons, List.flatMap_nil, List.append_nil]
  exact bind_nil (h.tok h3)

end

section
variable {V : Type} {A : Alg V} {k M : Nat} {stm : P Seq} (g : Good A k) (hM : 3 * k + 2 < M)
include g hM

theorem assign_kind {a : LAssign} {w R : List VTok} (h : a.Toks w) (hk : w.length ≤ k) :
    ∃ t, MK A t (.assign a) ∧ NoLab (w ++ R) ∧ Rd None' (seqKind (env M) stm) w R t := by
  obtain ⟨hl, hs⟩ := LAssign.start h R
  have key : ∀ {t : SeqKind}, MAs A t a → Rd None' (alts [
      signalAssignment (env M) >>= fun a => pure (.sig a),
      variableAssignment (env M) >>= fun a => pure (.var a),
      procedureCall (env M),
      ifStatement (env M) stm,
      caseStatement (env M) stm,
      loopStatement (env M) stm,
      nextExit (env M) .NEXT .next,
      nextExit (env M) .EXIT .exit,
      returnStatement (env M),
      nullStatement]) w R t → ∃ t, MK A t (.assign a) ∧ NoLab (w ++ R) ∧ Rd None' (seqKind (env M) stm) w R t := by
    intro t m f
    refine ⟨t, ⟨fun B => by rw [m.ev]; simp only [LStm.eval], m.ok, m.lab⟩, hl, ?_⟩
    exact Rd.orN (bind_nil (tok_next (hs _ rfl (by decide) (by decide)))) (Rd.orN (bind_nil (tok_next (hs _ rfl (by decide) (by decide))))
      (Rd.orN (bind_nil (tok_next (hs _ rfl (by decide) (by decide)))) f))
  cases a with
  | wave => obtain ⟨t, m, f⟩ := wave_good g hM h hk (R := R); exact key m (Rd.orL (Rd.map f))
  | force => obtain ⟨t, m, f⟩ := force_good g hM h hk (R := R); exact key m (Rd.orL (Rd.map f))
  | release => obtain ⟨t, m, f⟩ := release_good g hM h hk (R := R); exact key m (Rd.orL (Rd.map f))
  | waveCond => obtain ⟨t, m, f⟩ := waveCond_good g hM h hk (R := R); exact key m (Rd.orL (Rd.map f))
  | forceCond => obtain ⟨t, m, f⟩ := forceCond_good g hM h hk (R := R); exact key m (Rd.orL (Rd.map f))
  | waveSel => obtain ⟨t, m, f⟩ := waveSel_good g hM h hk (R := R); exact key m (Rd.orL (Rd.map f))
  | forceSel => obtain ⟨t, m, f⟩ := forceSel_good g hM h hk (R := R); exact key m (Rd.orL (Rd.map f))
  | var => obtain ⟨n, t, m, f⟩ := var_good g hM h hk (R := R); exact key m (Rd.orN (bind_nil n) (Rd.orL (Rd.map f)))
  | varCond => obtain ⟨n, t, m, f⟩ := varCond_good g hM h hk (R := R); exact key m (Rd.orN (bind_nil n) (Rd.orL (Rd.map f)))
  | varSel => obtain ⟨n, t, m, f⟩ := varSel_good g hM h hk (R := R); exact key m (Rd.orN (bind_nil n) (Rd.orL (Rd.map f)))

theorem call_kind {p : LName} {args : List LArg} {w R : List VTok} (h : (LStm.call p args).Toks w) (hk : w.length ≤ k) :
    ∃ t, MK A t (.call p args) ∧ NoLab (w ++ R) ∧ Rd None' (seqKind (env M) stm) w R t := by
  obtain ⟨n1, n2, t, ev, ok, f⟩ := call_good g hM h hk (R := R)
  have hs : NoLab (w ++ R) ∧ ∀ t, nameStart t = false → next (w ++ R) ≠ some t := by
    simp only [LStm.Toks] at h
    obtain ⟨wn, ws, rfl, ⟨hp, hn⟩, hs⟩ := h
    have hn' : (callName p args).Toks wn := by cases args <;> exact hn
    rw [List.append_assoc]
    refine ⟨LName.noLab hn' (One.ne hs (by decide)), fun t ht => ?_⟩
    obtain ⟨y, s, rfl, hy⟩ := LName.start hn'
    rw [List.cons_append, next_cons]
    intro e
    rw [Option.some.inj e, ht] at hy; cases hy
  refine ⟨.call t, ⟨fun B => by simp only [evSeqKind, LStm.eval, ev], fun h => by simp only [LStm.Ok] at h; exact ok h.1 h.2.1 h.2.2, rfl⟩, hs.1, ?_⟩
  exact Rd.orN (bind_nil (tok_next (hs.2 _ rfl))) (Rd.orN (bind_nil (tok_next (hs.2 _ rfl))) (Rd.orN (bind_nil (tok_next (hs.2 _ rfl)))
    (Rd.orN (bind_nil n1) (Rd.orN (bind_nil n2) (Rd.orL f)))))

/-! ## Wait -/

theorem time_rd {e : LExpr} (ht : LExpr.isTime e) {w R : List VTok} (h : e.Toks w) (hk : w.length ≤ k) (hR : Nx afterExpr R) :
    ∃ t, isTime t ∧ Rd Dp ((env M).expression 0) w R t := by
  obtain ⟨M, rfl⟩ : ∃ m, M = m + 2 := ⟨M - 2, by omega⟩
  have hE := hR.endE
  have key : ∀ {p : Primary}, (∃ y s, w = y :: s ∧ y.ty ≠ .COND_OP) → First Dp (primary (env M)) (w ++ R) p R → Rd Dp ((env (M + 2)).expression 0) w R (.simple (.prim p)) := by
    rintro p ⟨y, s, rfl, hy⟩ f
    have f1 : Lift Dp (simpleStep (env M) 0) ((env (M + 1)).simple 0) (y :: s) R (.prim p) := lift_head (First.orL (power_prim f hE.pow))
    have f2 : First Dp (expressionHead (env (M + 1))) (y :: s ++ R) (.simple (.prim p)) R :=
      First.orN (bind_nil (tok_neg hy _)) (First.map (f := Expression.simple) (f1.stop (simpleStep_nil (.inr hE.mul) (.inr hE.add))))
    exact (lift_headE f2).stop (expressionStep_nil (.inr hE.shift) (.inr hE.rel) (.inr hE.logic))
  unfold LExpr.isTime at ht
  split at ht
  · simp only [LExpr.Toks, LRel.Toks, LShift.Toks, LSimple.Toks, LTerm.Toks, LFactor.Toks, LPrim.Toks] at h
    obtain ⟨_, v, rfl, ⟨y, rfl, hy, rfl⟩, hv⟩ := h
    simp only [List.length_append, List.length_cons, List.length_nil] at hk
    obtain ⟨t, -, f⟩ := g.name' hv (by omega) (M := M) (by omega) hE.toEndP.stuck
    exact ⟨.simple (.prim (.decUnit y.text t)), trivial, key ⟨y, _, rfl, by rw [hy]; decide⟩
      (First.orL (First.orL (First.bindH (First.tok hy _) (First.bindH f.some (First.ret _ _)))))⟩
  · simp only [LExpr.Toks, LRel.Toks, LShift.Toks, LSimple.Toks, LTerm.Toks, LFactor.Toks, LPrim.Toks] at h
    obtain ⟨_, v, rfl, ⟨y, rfl, hy, rfl⟩, hv⟩ := h
    simp only [List.length_append, List.length_cons, List.length_nil] at hk
    obtain ⟨t, -, f⟩ := g.name' hv (by omega) (M := M) (by omega) hE.toEndP.stuck
    exact ⟨.simple (.prim (.basedUnit y.text t)), trivial, key ⟨y, _, rfl, by rw [hy]; decide⟩
      (First.orL (First.orN (bind_nil (tok_neg (by rw [hy]; decide) _)) (First.orL (First.bindH (First.tok hy _) (First.bindH f.some (First.ret _ _))))))⟩
  · exact ht.elim

omit g hM in
theorem First.unique {α : Type} {D : List VTok → Prop} {p : P α} {ts r : List VTok} {a b : α} (h1 : First D p ts a r) (h2 : First D p ts b r)
    (hr : ¬ D r) : a = b := by
  obtain ⟨pre, post, e, hd⟩ := h1
  obtain ⟨pre', post', e', hd'⟩ := h2
  rw [e] at e'
  rcases List.append_eq_append_iff.1 e' with ⟨l, h3, h4⟩ | ⟨l, h3, h4⟩
  · cases l with
    | nil => simp at h4; exact h4.1
    | cons x l =>
      rw [List.cons_append] at h4
      have := (List.cons.inj h4).1
      subst this
      exact (hr (hd' (a, r) (by rw [h3]; simp))).elim
  · cases l with
    | nil => simp at h4; exact h4.1.symm
    | cons x l =>
      rw [List.cons_append] at h4
      have := (List.cons.inj h4).1
      subst this
      exact (hr (hd (b, r) (by rw [h3]; simp))).elim

omit g hM in
theorem Nx.notDp {L : List VT} {R : List VTok} (h : Nx L R) (hL : ∀ t ∈ L, partStart t = false) : ¬ Dp R := by
  rintro ⟨y, s, rfl, hy⟩
  obtain ⟨t, e, ht⟩ := h
  cases e
  rw [hL _ ht] at hy; cases hy

/-- The time of a `wait`. -/
theorem for_rd {o : Option LExpr} {w R : List VTok} (h : Opt' (After .FOR LExpr.Toks) o w) (hk : w.length ≤ k) (hR : Nx [.SEMI] R) :
    ∃ t, (OM (ME A) t o ∧ ((∀ e, o = some e → LExpr.isTime e) → ∀ e, t = some e → isTime e)) ∧
      Rd Dp (opt (tok (.kw .FOR) >>= fun _ => (env M).expression 0)) w R t := by
  cases o with
  | none =>
    obtain ⟨t, m, f⟩ := optE_rd g hM h hk hR (by decide) (by decide)
    refine ⟨t, ⟨m, fun _ e he => ?_⟩, f⟩
    subst he; exact m.elim
  | some e =>
    obtain ⟨u, v, rfl, hu, hv⟩ := h
    simp only [List.length_append] at hk
    obtain ⟨t, m, f⟩ := expr_rd g hM hv (R := R) (by omega) (hR.mono (by decide))
    refine ⟨some t, ⟨m, fun hT e' he => ?_⟩, Rd.some (Rd.tok hu f)⟩
    cases he
    obtain ⟨t', h', f'⟩ := time_rd g hM (hT e rfl) hv (R := R) (by omega) (hR.mono (by decide))
    rw [First.unique f f' (hR.notDp (by decide))]
    exact h'

theorem on_rd {l : List LName} {w R : List VTok} (h : onToks l w) (hk : w.length ≤ k) (hR : Nx [.kw .UNTIL, .kw .FOR, .SEMI] R) :
    ∃ t, (List.Forall₂ (MN A) (t.getD []) l) ∧ Rd None' (opt (sensitivityClause (env M))) w R t := by
  cases l with
  | nil =>
    cases h
    exact ⟨none, .nil, Rd.none (bind_nil (hR.tok (by decide)))⟩
  | cons n l =>
    obtain ⟨u, _, rfl, hu, wn, wl, rfl, hn, hl⟩ := h
    simp only [List.length_append] at hk
    obtain ⟨a, as, ma, mas, f⟩ := sepBy_firstD (p := (env M).name) (sep := .COMMA) (D := None') (C := Nx [.kw .UNTIL, .kw .FOR, .SEMI]) (T := LName.Toks) (M := MN A)
      (LT := Rep fun n => Cat (One .COMMA) (LName.Toks n)) (k := k) (fun R hR => hR.not (by decide)) (fun _ h => h.elim) (fun _ h => h)
      (fun b l w h => by
        obtain ⟨_, v, rfl, ⟨x, u, rfl, ⟨y, rfl, hy⟩, hu⟩, hv⟩ := h
        exact ⟨y, u, v, by simp, hy, hu, hv⟩)
      (fun b u R hb hk hR => name_rd g hM hb hk (L := [.COMMA, .kw .UNTIL, .kw .FOR, .SEMI])
        (by rcases hR with h | h
            · exact ⟨_, h, by decide⟩
            · exact h.mono (by decide)) (by decide))
      n l wn wl hn hl (by rw [List.length_append]; omega) R hR
    refine ⟨some (a :: as), .cons ma mas, Rd.some (Rd.tok hu ?_)⟩
    rw [Rd, List.append_assoc]
    exact f

omit g hM in
theorem fall_map {α β γ : Type} {P : α → β → Prop} {f : α → γ} {f' : β → γ} (hf : ∀ a b, P a b → f a = f' b) {l : List α} {l' : List β}
    (h : List.Forall₂ P l l') : l.map f = l'.map f' := by
  induction h with
  | nil => rfl
  | cons h _ ih => simp only [List.map_cons, hf _ _ h, ih]

theorem wait_kind {on : List LName} {u f : Option LExpr} {w R : List VTok} (h : (LStm.wait on u f).Toks w) (hk : w.length ≤ k) :
    ∃ t, MK A t (.wait on u f) ∧ NoLab (w ++ R) ∧ Rd None' (seqKind (env M) stm) w R t := by
  simp only [LStm.Toks] at h
  obtain ⟨w0, _, rfl, h0, w1, _, rfl, h1, w2, _, rfl, h2, w3, w4, rfl, h3, h4⟩ := h
  simp only [List.length_append] at hk
  have n0 : Nx [.SEMI] (w4 ++ R) := Nx.one h4 (by decide)
  have n1 : Nx [.kw .FOR, .SEMI] ((w3 ++ w4) ++ R) := Nx.assoc (Nx.opt h3 (n0.mono (by decide)) (by decide))
  have n2 : Nx [.kw .UNTIL, .kw .FOR, .SEMI] ((w2 ++ (w3 ++ w4)) ++ R) := Nx.assoc (Nx.opt h2 (n1.mono (by decide)) (by decide))
  obtain ⟨t1, m1, f1⟩ := on_rd g hM h1 (by omega) n2
  obtain ⟨t2, m2, f2⟩ := optE_rd g hM h2 (by omega) n1 (by decide) (by decide)
  obtain ⟨t3, ⟨m3, m3'⟩, f3⟩ := for_rd g hM h3 (by omega) n0
  have hn : Nx [.kw .WAIT] ((w0 ++ (w1 ++ (w2 ++ (w3 ++ w4)))) ++ R) := Nx.cat h0 (by decide)
  refine ⟨.wait (t1.getD []) t2 t3, ⟨fun B => ?_, fun h => ?_, rfl⟩, hn.noLab (by decide) (by decide), Rd.orL ?_⟩
  · simp only [evSeqKind, LStm.eval, m2.map (f := evExpression A) (g := LExpr.eval A) fun _ _ h => h.ev, m3.map (f := evExpression A) (g := LExpr.eval A) fun _ _ h => h.ev,
      fall_map (f := evName A) (f' := LName.eval A) (fun _ _ h => h.ev) m1]
  · simp only [LStm.Ok] at h
    refine ⟨fun n hn => ?_, m2.ok h.2.1, m3.ok h.2.2.1, m3' h.2.2.2⟩
    obtain ⟨b, hb, hm⟩ := fall_mem m1 hn
    exact hm.ok (h.1 b hb)
  · exact Rd.tok h0 (Rd.bindN f1 (Rd.head f2 (Rd.head f3 (Rd.last h4) fun _ => Kill.tok rfl) fun _ => Kill.opt rfl (Kill.tok rfl)))

/-! ## Other statements -/

theorem assert_kind {c : LExpr} {r s : Option LExpr} {w R : List VTok} (h : (LStm.assert_ c r s).Toks w) (hk : w.length ≤ k) :
    ∃ t, MK A t (.assert_ c r s) ∧ NoLab (w ++ R) ∧ Rd None' (seqKind (env M) stm) w R t := by
  simp only [LStm.Toks] at h
  obtain ⟨w0, _, rfl, h0, w1, _, rfl, h1, w2, _, rfl, h2, w3, w4, rfl, h3, h4⟩ := h
  simp only [List.length_append] at hk
  have n0 : Nx [.SEMI] (w4 ++ R) := Nx.one h4 (by decide)
  have n1 : Nx [.kw .SEVERITY, .SEMI] ((w3 ++ w4) ++ R) := Nx.assoc (Nx.opt h3 (n0.mono (by decide)) (by decide))
  have n2 : Nx [.kw .REPORT, .kw .SEVERITY, .SEMI] ((w2 ++ (w3 ++ w4)) ++ R) := Nx.assoc (Nx.opt h2 (n1.mono (by decide)) (by decide))
  obtain ⟨t1, m1, f1⟩ := expr_rd g hM h1 (by omega) (n2.mono (by decide))
  obtain ⟨t2, m2, f2⟩ := optE_rd g hM h2 (by omega) n1 (by decide) (by decide)
  obtain ⟨t3, m3, f3⟩ := optE_rd g hM h3 (by omega) n0 (by decide) (by decide)
  have hn : Nx [.kw .ASSERT] ((w0 ++ (w1 ++ (w2 ++ (w3 ++ w4)))) ++ R) := Nx.cat h0 (by decide)
  refine ⟨.assert_ t1 t2 t3, ⟨fun B => ?_, fun h => ?_, rfl⟩, hn.noLab (by decide) (by decide), Rd.orN (bind_nil (hn.tok (by decide))) (Rd.orL ?_)⟩
  · simp only [evSeqKind, LStm.eval, m1.ev, m2.map (f := evExpression A) (g := LExpr.eval A) fun _ _ h => h.ev,
      m3.map (f := evExpression A) (g := LExpr.eval A) fun _ _ h => h.ev]
  · simp only [LStm.Ok] at h
    refine ⟨m1.ok h.1, m2.ok h.2.1, m3.ok h.2.2.1, ?_⟩
    rintro rfl
    have hr : r = none := by cases r with
      | none => rfl
      | some => exact m2.elim
    have hs := h.2.2.2 hr
    subst hs
    cases t3 with
    | none => rfl
    | some => exact m3.elim
  · exact Rd.tok h0 (Rd.head f1 (Rd.head f2 (Rd.head f3 (Rd.last h4) fun _ => Kill.tok rfl) fun _ => Kill.opt rfl (Kill.tok rfl))
      fun _ => Kill.opt rfl (Kill.opt rfl (Kill.tok rfl)))

theorem report_kind {c : LExpr} {s : Option LExpr} {w R : List VTok} (h : (LStm.report c s).Toks w) (hk : w.length ≤ k) :
    ∃ t, MK A t (.report c s) ∧ NoLab (w ++ R) ∧ Rd None' (seqKind (env M) stm) w R t := by
  simp only [LStm.Toks] at h
  obtain ⟨w0, _, rfl, h0, w1, _, rfl, h1, w3, w4, rfl, h3, h4⟩ := h
  simp only [List.length_append] at hk
  have n0 : Nx [.SEMI] (w4 ++ R) := Nx.one h4 (by decide)
  have n1 : Nx [.kw .SEVERITY, .SEMI] ((w3 ++ w4) ++ R) := Nx.assoc (Nx.opt h3 (n0.mono (by decide)) (by decide))
  obtain ⟨t1, m1, f1⟩ := expr_rd g hM h1 (by omega) (n1.mono (by decide))
  obtain ⟨t3, m3, f3⟩ := optE_rd g hM h3 (by omega) n0 (by decide) (by decide)
  have hn : Nx [.kw .REPORT] ((w0 ++ (w1 ++ (w3 ++ w4))) ++ R) := Nx.cat h0 (by decide)
  refine ⟨.report t1 t3, ⟨fun B => ?_, fun h => ?_, rfl⟩, hn.noLab (by decide) (by decide), Rd.orN (bind_nil (hn.tok (by decide)))
    (Rd.orN (bind_nil (hn.tok (by decide))) (Rd.orL ?_))⟩
  · simp only [evSeqKind, LStm.eval, m1.ev, m3.map (f := evExpression A) (g := LExpr.eval A) fun _ _ h => h.ev]
  · simp only [LStm.Ok] at h
    exact ⟨m1.ok h.1, m3.ok h.2⟩
  · exact Rd.tok h0 (Rd.head f1 (Rd.head f3 (Rd.last h4) fun _ => Kill.tok rfl) fun _ => Kill.opt rfl (Kill.tok rfl))

omit g hM in
/-- The alternatives in front of the one for a reserved word. -/
theorem pre_no {L : List VT} {ts : List VTok} (h : Nx L ts) (hL : ∀ t ∈ L, nameStart t = false ∧ t ≠ .LPAREN ∧ t ≠ .kw .WITH)
    (h1 : VT.kw .WAIT ∉ L) (h2 : VT.kw .ASSERT ∉ L) (h3 : VT.kw .REPORT ∉ L) {w R : List VTok} (hw : w ++ R = ts) {t : SeqKind}
    (f : Rd None' (alts [
      ifStatement (env M) stm,
      caseStatement (env M) stm,
      loopStatement (env M) stm,
      nextExit (env M) .NEXT .next,
      nextExit (env M) .EXIT .exit,
      returnStatement (env M),
      nullStatement]) w R t) : Rd None' (seqKind (env M) stm) w R t := by
  subst hw
  obtain ⟨n1, n2, n3⟩ := assign_no (M := M) h hL
  exact Rd.orN (bind_nil (h.tok h1)) (Rd.orN (bind_nil (h.tok h2)) (Rd.orN (bind_nil (h.tok h3))
    (Rd.orN (bind_nil n1) (Rd.orN (bind_nil n2) (Rd.orN n3 f)))))

theorem nextExit_rd {K : Kw} {F : Option Str → Option Expression → SeqKind} {l : Option Str} {c : Option LExpr} {w0 w1 w2 w3 R : List VTok}
    (h0 : Word K w0) (h1 : Opt' Ident l w1) (h2 : Opt' (After .WHEN LExpr.Toks) c w2) (h3 : One .SEMI w3) (hk : w2.length ≤ k) :
    ∃ t, OM (ME A) t c ∧ Rd None' (nextExit (env M) K F) (w0 ++ (w1 ++ (w2 ++ w3))) R (F l t) := by
  have n0 : Nx [.SEMI] (w3 ++ R) := Nx.one h3 (by decide)
  have n1 : Nx [.kw .WHEN, .SEMI] ((w2 ++ w3) ++ R) := Nx.assoc (Nx.opt h2 (n0.mono (by decide)) (by decide))
  obtain ⟨t2, m2, f2⟩ := optE_rd g hM h2 (by omega) n0 (by decide) (by decide)
  exact ⟨t2, m2, Rd.tok h0 (Rd.bindN (label_rd h1 n1 (by decide) (by decide)) (Rd.head f2 (Rd.last h3) fun _ => Kill.tok rfl))⟩

theorem next_kind {l : Option Str} {c : Option LExpr} {w R : List VTok} (h : (LStm.next l c).Toks w) (hk : w.length ≤ k) :
    ∃ t, MK A t (.next l c) ∧ NoLab (w ++ R) ∧ Rd None' (seqKind (env M) stm) w R t := by
  simp only [LStm.Toks] at h
  obtain ⟨w0, _, rfl, h0, w1, _, rfl, h1, w2, w3, rfl, h2, h3⟩ := h
  simp only [List.length_append] at hk
  obtain ⟨t, m, f⟩ := nextExit_rd g hM (F := .next) h0 h1 h2 h3 (R := R) (by omega)
  have hn : Nx [.kw .NEXT] ((w0 ++ (w1 ++ (w2 ++ w3))) ++ R) := Nx.cat h0 (by decide)
  refine ⟨.next l t, ⟨fun B => ?_, fun h => m.ok (by simpa only [LStm.Ok] using h), rfl⟩, hn.noLab (by decide) (by decide),
    pre_no hn (by decide) (by decide) (by decide) (by decide) rfl (Rd.orN (bind_nil (hn.tok (by decide))) (Rd.orN (bind_nil (hn.tok (by decide)))
      (Rd.orN (loop_no hn (by decide) (by decide) (by decide)) (Rd.orL f))))⟩
  simp only [evSeqKind, LStm.eval, m.map (f := evExpression A) (g := LExpr.eval A) fun _ _ h => h.ev]

theorem exit_kind {l : Option Str} {c : Option LExpr} {w R : List VTok} (h : (LStm.exit l c).Toks w) (hk : w.length ≤ k) :
    ∃ t, MK A t (.exit l c) ∧ NoLab (w ++ R) ∧ Rd None' (seqKind (env M) stm) w R t := by
  simp only [LStm.Toks] at h
  obtain ⟨w0, _, rfl, h0, w1, _, rfl, h1, w2, w3, rfl, h2, h3⟩ := h
  simp only [List.length_append] at hk
  obtain ⟨t, m, f⟩ := nextExit_rd g hM (F := .exit) h0 h1 h2 h3 (R := R) (by omega)
  have hn : Nx [.kw .EXIT] ((w0 ++ (w1 ++ (w2 ++ w3))) ++ R) := Nx.cat h0 (by decide)
  refine ⟨.exit l t, ⟨fun B => ?_, fun h => m.ok (by simpa only [LStm.Ok] using h), rfl⟩, hn.noLab (by decide) (by decide),
    pre_no hn (by decide) (by decide) (by decide) (by decide) rfl (Rd.orN (bind_nil (hn.tok (by decide))) (Rd.orN (bind_nil (hn.tok (by decide)))
      (Rd.orN (loop_no hn (by decide) (by decide) (by decide)) (Rd.orN (bind_nil (hn.tok (by decide))) (Rd.orL f)))))⟩
  simp only [evSeqKind, LStm.eval, m.map (f := evExpression A) (g := LExpr.eval A) fun _ _ h => h.ev]

theorem ret_kind {c : Option LExpr} {w R : List VTok} (h : (LStm.ret c).Toks w) (hk : w.length ≤ k) :
    ∃ t, MK A t (.ret c) ∧ NoLab (w ++ R) ∧ Rd None' (seqKind (env M) stm) w R t := by
  simp only [LStm.Toks] at h
  obtain ⟨w0, _, rfl, h0, w1, w2, rfl, h1, h2⟩ := h
  simp only [List.length_append] at hk
  have n0 : Nx [.SEMI] (w2 ++ R) := Nx.one h2 (by decide)
  have : ∃ t, OM (ME A) t c ∧ Rd Dp (opt ((env M).expression 0)) w1 (w2 ++ R) t := by
    cases c with
    | none => cases h1; exact ⟨none, trivial, Rd.none (expr_no n0 (by decide))⟩
    | some c =>
      obtain ⟨t, m, f⟩ := expr_rd g hM h1 (R := w2 ++ R) (by omega) (n0.mono (by decide))
      exact ⟨some t, m, Rd.some f⟩
  obtain ⟨t, m, f⟩ := this
  have hn : Nx [.kw .RETURN] ((w0 ++ (w1 ++ w2)) ++ R) := Nx.cat h0 (by decide)
  refine ⟨.ret t, ⟨fun B => ?_, fun h => m.ok (by simpa only [LStm.Ok] using h), rfl⟩, hn.noLab (by decide) (by decide),
    pre_no hn (by decide) (by decide) (by decide) (by decide) rfl (Rd.orN (bind_nil (hn.tok (by decide))) (Rd.orN (bind_nil (hn.tok (by decide)))
      (Rd.orN (loop_no hn (by decide) (by decide) (by decide)) (Rd.orN (bind_nil (hn.tok (by decide))) (Rd.orN (bind_nil (hn.tok (by decide))) (Rd.orL ?_))))))⟩
  · simp only [evSeqKind, LStm.eval, m.map (f := evExpression A) (g := LExpr.eval A) fun _ _ h => h.ev]
  · exact Rd.tok h0 (Rd.head f (Rd.last h2) fun _ => Kill.tok rfl)

omit g hM in
theorem null_kind {w R : List VTok} (h : LStm.null_.Toks w) :
    ∃ t, MK A t .null_ ∧ NoLab (w ++ R) ∧ Rd None' (seqKind (env M) stm) w R t := by
  simp only [LStm.Toks] at h
  obtain ⟨w0, w1, rfl, h0, h1⟩ := h
  have hn : Nx [.kw .NULL] ((w0 ++ w1) ++ R) := Nx.cat h0 (by decide)
  refine ⟨.null_, ⟨fun B => ?_, fun h => trivial, rfl⟩, hn.noLab (by decide) (by decide),
    pre_no hn (by decide) (by decide) (by decide) (by decide) rfl (Rd.orN (bind_nil (hn.tok (by decide))) (Rd.orN (bind_nil (hn.tok (by decide)))
      (Rd.orN (loop_no hn (by decide) (by decide) (by decide)) (Rd.orN (bind_nil (hn.tok (by decide))) (Rd.orN (bind_nil (hn.tok (by decide)))
        (Rd.orN (bind_nil (hn.tok (by decide))) ?_))))))⟩
  · simp only [evSeqKind, LStm.eval]
  · exact Rd.tok h0 (Rd.last h1)

/-! ## Discrete ranges -/

/-- Not behind a discrete range of a loop. -/
def Dl (s : List VTok) : Prop := next s ≠ some (.kw .LOOP)

omit g hM in
theorem Mid.dl {s : List VTok} (h : Mid s) : Dl s := by
  obtain ⟨y, s, rfl, hy⟩ := h
  rw [Dl, next_cons]
  intro e
  rw [Option.some.inj e] at hy
  rcases hy with hy | hy <;> cases hy

omit g hM in
theorem Nx.closes {L : List VT} {R : List VTok} (h : Nx L R)
    (hL : ∀ t ∈ L, nameStart t = false ∧ partStart t = false ∧ opTok t = false ∧ t ≠ .kw .RANGE) : Closes R := by
  obtain ⟨y, s, rfl, hy⟩ := h.cons
  exact ⟨y, s, rfl, hL _ hy⟩

omit hM in
/-- `a to b` -/
theorem range_rd (hM : 3 * k + 1 < M) {a b : LSimple} {d : Bool} {wa wd wb R : List VTok} (ha : a.Toks wa) (hd : One (dirTy d) wd) (hb : b.Toks wb)
    (hka : wa.length ≤ k) (hkb : wb.length ≤ k) (hR : Nx [.kw .LOOP] R) :
    ∃ ta tb, (MS A ta a ∧ MS A tb b) ∧ Rd Dl (range (env M)) (wa ++ (wd ++ wb)) R (.expl (.mk ta d tb)) := by
  obtain ⟨z, rfl, hz⟩ := hd
  have hzc := dir_closes hz (wb ++ R)
  obtain ⟨ta, hta, fa⟩ := g.simple' ha hka (M := M) (by omega) hzc.endE.toEndS
  obtain ⟨tb, htb, fb⟩ := g.simple' hb hkb (M := M) (by omega) (hR.closes (by decide)).endE.toEndS
  refine ⟨ta, tb, ⟨hta, htb⟩, ?_⟩
  have hl := LSimple.lead a ha
  have fe : First Dp (explicitRange (env M)) (wa ++ z :: (wb ++ R)) (.mk ta d tb) R := by
    refine fa.head (First.bindH (First.of_eq (dir_pos hz _)) (First.map (f := ERange.mk ta d) fb)) fun _ s hs => ?_
    obtain ⟨y, s', rfl, hy⟩ := hs
    refine bind_nil (toks_neg (fun a => ?_) _)
    intro hm
    simp only [List.mem_cons, Prod.mk.injEq, List.not_mem_nil, or_false] at hm
    rcases hm with ⟨h, -⟩ | ⟨h, -⟩ <;> rw [h] at hy <;> cases hy
  have e : (wa ++ ([z] ++ wb)) ++ R = wa ++ z :: (wb ++ R) := by simp
  rw [Rd, e]
  refine First.orR (fun x hx => ?_) (First.map (f := Range.expl) (fe.mono fun s hs => hs.mid.dl))
  obtain ⟨n, r1, g1, g2⟩ := mem_bind.1 hx
  obtain ⟨n', r2, g3, g4⟩ := mem_bind.1 g2
  rw [mem_pure] at g4; cases g4
  obtain ⟨m, hm, hp⟩ := nameAttributePart_parts (sound_env M) g3
  rcases hl.name hzc (((ends_env M).name _ _ g1).trans (.step hm hp)) with h | ⟨h, -⟩
  · exact h.dl
  · rw [Dl, h, next_cons, hz]
    cases d <;> simp [dirTy]

structure MD {V : Type} (A : Alg V) (t : Discr) (d : LDiscr) : Prop where
  ev : evDiscr A t = d.eval A
  ok : LDiscr.Ok d → okDiscr t

theorem discrete_rd {d : LDiscr} {w R : List VTok} (h : d.Toks w) (hk : w.length ≤ k) (hR : Nx [.kw .LOOP] R) :
    ∃ t, MD A t d ∧ Rd Dl (discreteRange (env M)) w R t := by
  have hcl : Closes R := hR.closes (by decide)
  cases d with
  | name n =>
    obtain ⟨t, ht, f⟩ := subInd_name g h hk (M := M) (by omega) hcl
    refine ⟨.sub (.mk .none t .none), ⟨?_, fun h => ⟨trivial, ht.ok h, trivial⟩⟩, Rd.orL (Rd.map (g := Discr.sub) (f.weak))⟩
    simp only [evDiscr, evSubInd, evConstr, LDiscr.eval, ht.ev]
  | range a d b =>
    obtain ⟨wa, _, rfl, ha, wd, wb, rfl, hd, hb⟩ := h
    simp only [List.length_append] at hk
    obtain ⟨ta, tb, ⟨hta, htb⟩, f⟩ := range_rd (M := M) g (by omega) ha hd hb (R := R) (by omega) (by omega) hR
    refine ⟨.range (.expl (.mk ta d tb)), ⟨?_, fun h => ⟨hta.ok h.1, htb.ok h.2⟩⟩, First.orR (fun x hx => ?_) (Rd.map (g := Discr.range) f)⟩
    · cases d <;> simp only [evDiscr, evRange, evERange, LDiscr.eval, hta.ev, htb.ev, dirSym]
    · obtain ⟨z, rfl, hz⟩ := hd
      have hzc := dir_closes hz (wb ++ R)
      obtain ⟨_, r', h3, h4⟩ := mem_bind.1 hx
      rw [mem_pure] at h4; cases h4
      rw [show wa ++ ([z] ++ wb) ++ R = wa ++ z :: (wb ++ R) by simp] at h3
      rcases (LSimple.lead a ha).subInd hzc h3 with h | ⟨h, -⟩
      · exact h.dl
      · simp only at h
        rw [Dl, h, next_cons, hz]
        cases d <;> simp [dirTy]
  | sub n a d b =>
    obtain ⟨wn, _, rfl, hn, wr, _, rfl, hr, wa, _, rfl, ha, wd, wb, rfl, hd, hb⟩ := h
    simp only [List.length_append] at hk
    obtain ⟨M, rfl⟩ : ∃ m, M = m + 1 := ⟨M - 1, by omega⟩
    obtain ⟨ta, tb, ⟨hta, htb⟩, f⟩ := range_rd (M := M) g (by omega) ha hd hb (R := R) (by omega) (by omega) hR
    have hx : Nx [.kw .RANGE] ((wr ++ (wa ++ (wd ++ wb))) ++ R) := Nx.cat hr (by decide)
    obtain ⟨t, ht, fn⟩ := g.name' hn (by omega) (M := M) (by omega) (hx.stuck (by decide))
    refine ⟨.sub (.mk .none t (.range (.expl (.mk ta d tb)))), ⟨?_, fun h => ⟨trivial, ht.ok h.1, hta.ok h.2.1, htb.ok h.2.2⟩⟩, Rd.orL (Rd.map (g := Discr.sub) ?_)⟩
    · cases d <;> simp only [evDiscr, evSubInd, evConstr, evRange, evERange, LDiscr.eval, ht.ev, hta.ev, htb.ev, dirSym]
    · have f1 : First (fun s => (env M).name s = []) (opt (resolution (env M))) (wn ++ (wr ++ (wa ++ (wd ++ wb))) ++ R) none
          (wn ++ (wr ++ (wa ++ (wd ++ wb))) ++ R) := by
        refine First.none fun x hx' => ?_
        rcases mem_or.1 hx' with hx' | hx'
        · obtain ⟨m, r, h1, h2⟩ := mem_bind.1 hx'
          rw [mem_pure] at h2; subst h2
          rw [List.append_assoc] at h1
          rcases target_only (x := .name n) hn hx (by decide) (M := M) (y := (.name m, r)) (mem_or.2 (.inl (mem_bind.2 ⟨m, r, h1, mem_pure.2 rfl⟩))) with h | h
          · simp only at h ⊢
            rw [h]
            exact name_no fun t e => by
              obtain ⟨t', e', ht'⟩ := hx
              rw [e'] at e; cases e
              simp only [List.mem_cons, List.not_mem_nil, or_false] at ht'
              rw [ht']; rfl
          · refine name_no fun t e => ?_
            obtain ⟨y, s, e', hy⟩ := h
            simp only at e' ⊢
            rw [e', next_cons] at e
            cases e
            exact (partStart_facts hy).2
        · obtain ⟨m, r, h1, h2⟩ := mem_bind.1 hx'
          obtain ⟨m', r', h3, h4⟩ := mem_bind.1 h1
          obtain ⟨y0, s0, e0, h0⟩ := LName.start hn
          rw [e0, List.cons_append, List.cons_append, tok_neg (by intro e; rw [e] at h0; cases h0)] at h3
          cases h3
      refine First.head (D' := fun s => (env M).name s = []) f1 ?_ fun c s hs => bind_nil hs
      rw [List.append_assoc]
      refine First.bindH fn ?_
      exact Rd.map (g := fun c : Option Constr => SubInd.mk .none t (c.getD .none)) (Rd.some (Rd.orL (Rd.tok hr (Rd.map (g := Constr.range) f))))

structure MI {V : Type} (A : Alg V) (t : Iter) (i : LIter) : Prop where
  ev : ∀ {S : Type} (B : SAlg V S) (s : S), evLoop A B t s = i.eval A B s
  ok : LIter.Ok i → okIter t

/-- The beginning of a loop. -/
theorem iter_rd {i : LIter} {w R : List VTok} (h : i.Toks w) (hk : w.length ≤ k) (hR : Nx [.kw .LOOP] R) :
    ∃ t, MI A (t.getD .forever) i ∧ Rd Dl (opt (iterationScheme (env M))) w R t := by
  cases i with
  | forever =>
    cases h
    exact ⟨none, ⟨fun B s => rfl, fun _ => trivial⟩, Rd.none (or_nil (bind_nil (hR.tok (by decide))) (bind_nil (hR.tok (by decide))))⟩
  | while_ c =>
    obtain ⟨u, v, rfl, hu, hv⟩ := h
    simp only [List.length_append] at hk
    obtain ⟨t, m, f⟩ := expr_rd g hM hv (R := R) (by omega) (hR.mono (by decide))
    refine ⟨some (.while_ t), ⟨fun B s => ?_, m.ok⟩, Rd.some (Rd.orL (Rd.tok hu (Rd.map (g := Iter.while_) (f.mono fun s hs => hs.mid.dl))))⟩
    simp only [Option.getD, evLoop, LIter.eval, m.ev]
  | for_ i d =>
    obtain ⟨u, _, rfl, hu, v1, _, rfl, h1, v2, v3, rfl, h2, h3⟩ := h
    simp only [List.length_append] at hk
    obtain ⟨t, m, f⟩ := discrete_rd g hM h3 (R := R) (by omega) hR
    refine ⟨some (.for_ i t), ⟨fun B s => ?_, m.ok⟩, Rd.some (Rd.orN (bind_nil (Nx.tok (L := [.kw .FOR]) (Nx.cat hu (by decide)) (by decide)))
      (Rd.tok hu (Rd.bindN (ident_rd h1) (Rd.tok h2 (Rd.map (g := Iter.for_ i) f)))))⟩
    simp only [Option.getD, evLoop, LIter.eval, m.ev]

end

end Verif.Vhdl
