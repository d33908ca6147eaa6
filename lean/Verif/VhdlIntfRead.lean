import Verif.VhdlDeclRead
/-!
# VHDL: the parser reads subtypes, interfaces and types as the LRM says
-/
namespace Verif.Vhdl
open P Verif.Spec Verif.Spec.Lrm

def rangeOk (r : LSimple × Bool × LSimple) : Prop := LSimple.Ok r.1 ∧ LSimple.Ok r.2.2
def LSub.Ok (s : LSub) : Prop := (∀ r, s.resol = some r → LName.Ok r) ∧ LName.Ok s.mark ∧ ∀ r, s.range = some r → rangeOk r

structure MSb {V : Type} (A : Alg V) (t : SubInd) (s : LSub) : Prop where
  ev : evSubInd A t = s.eval A
  ok : LSub.Ok s → okSubInd t

section
variable {V : Type} {A : Alg V} {k M : Nat} (g : Good A k) (hM : 3 * k + 2 < M)
include g hM

omit hM in
/-- A range. -/
theorem rng_rd (hM : 3 * k + 1 < M) {r : LSimple × Bool × LSimple} {w R : List VTok} (h : rangeToks r w) (hk : w.length ≤ k) (hR : Closes R) :
    ∃ t, (evRange A t = rangeEval A r ∧ (rangeOk r → okRange t)) ∧ Rd Dm (rangeConstraint (env M)) w R t := by
  obtain ⟨a, d, b⟩ := r
  obtain ⟨w0, _, rfl, h0, wa, _, rfl, ha, wd, wb, rfl, hd, hb⟩ := h
  simp only [List.length_append] at hk
  obtain ⟨ta, tb, ⟨hta, htb⟩, f⟩ := range_rdm (M := M) g hM ha hd hb (R := R) (by omega) (by omega) hR
  refine ⟨.expl (.mk ta d tb), ⟨?_, fun h => ⟨hta.ok h.1, htb.ok h.2⟩⟩, Rd.tok h0 f⟩
  cases d <;> simp only [evRange, evERange, rangeEval, hta.ev, htb.ev, dirSym]

/-- The meaning of a subtype with a constraint. -/
def constrVal (A : Alg V) (r : Option (LSimple × Bool × LSimple)) (t : V) : V := match r with
  | none => t
  | some r => A.bin "range" t (rangeEval A r)

omit hM in
/-- The constraint of a subtype. -/
theorem constr_rd (hM : 3 * k + 1 < M) {r : Option (LSimple × Bool × LSimple)} {w R : List VTok} (h : Opt' rangeToks r w) (hk : w.length ≤ k) (hR : Closes R) :
    ∃ t : Option Constr, (∀ n : Name, evConstr A (evName A n) (t.getD .none) = constrVal A r (evName A n)) ∧
      ((∀ x, r = some x → rangeOk x) → okConstr (t.getD .none)) ∧ Rd Dm (opt (constraint (env M))) w R t := by
  cases r with
  | none =>
    cases h
    refine ⟨none, fun n => by simp only [Option.getD, evConstr, constrVal], fun _ => trivial, Rd.none ?_⟩
    obtain ⟨y, s, rfl, h1, h2, h3, h4⟩ := hR
    have hp : y.ty ≠ .LPAREN := by intro e; rw [e] at h2; cases h2
    refine or_nil (bind_nil (tok_neg h4 s)) (bind_nil ?_)
    exact or_nil (bind_nil (or_nil (bind_nil (tok_neg hp s)) (bind_nil (tok_neg hp s)))) (bind_nil (bind_nil (tok_neg hp s)))
  | some r =>
    obtain ⟨a, d, b⟩ := r
    obtain ⟨w0, _, rfl, h0, wa, _, rfl, ha, wd, wb, rfl, hd, hb⟩ := h
    simp only [List.length_append] at hk
    obtain ⟨ta, tb, ⟨hta, htb⟩, f⟩ := range_rdm (M := M) g hM ha hd hb (R := R) (by omega) (by omega) hR
    refine ⟨some (.range (.expl (.mk ta d tb))), fun n => ?_, fun h => ⟨hta.ok (h _ rfl).1, htb.ok (h _ rfl).2⟩, Rd.some (Rd.orL (Rd.tok h0 (Rd.map (g := Constr.range) f)))⟩
    cases d <;> simp only [Option.getD, constrVal, evConstr, evRange, evERange, rangeEval, hta.ev, htb.ev, dirSym]

omit g hM in
/-- There is no resolution function. -/
theorem resol_no {n : LName} {wn X : List VTok} (hn : n.Toks wn) {y : VTok} {s : List VTok} (hX : X = y :: s) (h1 : nameStart y.ty = false)
    (h2 : partStart y.ty = false) : First (fun s => (env M).name s = []) (opt (resolution (env M))) (wn ++ X) none (wn ++ X) := by
  have hx : Nx [y.ty] X := ⟨y.ty, by rw [hX, next_cons], by simp⟩
  refine First.none fun x hx' => ?_
  rcases mem_or.1 hx' with hx' | hx'
  · obtain ⟨m, r, h1', h2'⟩ := mem_bind.1 hx'
    rw [mem_pure] at h2'; subst h2'
    rcases target_only (x := .name n) hn hx (by simpa using h2) (M := M) (y := (.name m, r)) (mem_or.2 (.inl (mem_bind.2 ⟨m, r, h1', mem_pure.2 rfl⟩))) with h | h
    · simp only at h ⊢
      rw [h, hX]
      exact name_no fun t e => by cases e; exact h1
    · refine name_no fun t e => ?_
      obtain ⟨y, s, e', hy⟩ := h
      simp only at e' ⊢
      rw [e', next_cons] at e
      cases e
      exact (partStart_facts hy).2
  · obtain ⟨m, r, h1, h2⟩ := mem_bind.1 hx'
    obtain ⟨m', r', h3, h4⟩ := mem_bind.1 h1
    obtain ⟨y0, s0, e0, h0⟩ := LName.start hn
    rw [e0, List.cons_append, tok_neg (by intro e; rw [e] at h0; cases h0)] at h3
    cases h3

/-- A subtype indication. -/
theorem sub_rd {s : LSub} {w R : List VTok} (h : s.Toks w) (hk : w.length ≤ k) (hR : Closes R) :
    ∃ t, MSb A t s ∧ Rd Dm (env M).subInd w R t := by
  obtain ⟨wr, _, rfl, hr, wm, wc, rfl, hm, hc⟩ := h
  simp only [List.length_append] at hk
  obtain ⟨M, rfl⟩ : ∃ m, M = m + 1 := ⟨M - 1, by omega⟩
  obtain ⟨c, ec, oc, fc⟩ := constr_rd (M := M) g (by omega) hc (by omega) hR
  obtain ⟨y, s0, hX, h1, h2⟩ : ∃ y s0, wc ++ R = y :: s0 ∧ nameStart y.ty = false ∧ partStart y.ty = false := by
    cases hs : s.range with
    | none =>
      rw [hs] at hc; cases hc
      obtain ⟨y, s, rfl, h1, h2, h3, h4⟩ := hR
      exact ⟨y, s, rfl, h1, h2⟩
    | some r =>
      rw [hs] at hc
      obtain ⟨_, v, rfl, ⟨z, rfl, hz⟩, -⟩ := hc
      exact ⟨z, v ++ R, by simp, by rw [hz]; rfl, by rw [hz]; rfl⟩
  have hst : Nx [y.ty] (wc ++ R) := ⟨_, by rw [hX, next_cons], by simp⟩
  obtain ⟨t, ht, fn⟩ := g.name' hm (by omega) (M := M) (by omega) (hst.stuck (by simpa using h2))
  have f2 : ∀ r : Resol, Rd Dm ((env M).name >>= fun t => opt (constraint (env M)) >>= fun c => pure (SubInd.mk r t (c.getD .none))) (wm ++ wc) R (.mk r t (c.getD .none)) :=
    fun r => Rd.bindN fn (Rd.map (g := fun c : Option Constr => SubInd.mk r t (c.getD .none)) fc)
  cases hs : s.resol with
  | none =>
    rw [hs] at hr; cases hr
    refine ⟨.mk .none t (c.getD .none), ⟨?_, fun h => ⟨trivial, ht.ok h.2.1, oc h.2.2⟩⟩, ?_⟩
    · have e := ec t
      rw [ht.ev] at e
      simp only [evSubInd, ht.ev, e, LSub.eval, hs, constrVal]
      cases s.range <;> rfl
    · rw [Rd, List.nil_append]
      have := resol_no (M := M) hm hX h1 h2
      rw [← List.append_assoc] at this
      exact First.head (D' := fun s => (env M).name s = []) this (f2 .none) fun c s hs => bind_nil hs
  | some r =>
    rw [hs] at hr
    have hst2 : Stuck ((wm ++ wc) ++ R) := by
      obtain ⟨y, s, e, hy⟩ := LName.start hm
      rw [e]
      refine Nx.stuck (L := [y.ty]) ⟨_, next_cons _ _, by simp⟩ ?_
      simp only [List.mem_cons, List.not_mem_nil, or_false, forall_eq]
      generalize y.ty = t at hy
      cases t <;> first | rfl | cases hy
    obtain ⟨tr, htr, fr⟩ := g.name' hr (by omega) (M := M) (by omega) hst2
    refine ⟨.mk (.name tr) t (c.getD .none), ⟨?_, fun h => ⟨htr.ok (h.1 r hs), ht.ok h.2.1, oc h.2.2⟩⟩, ?_⟩
    · have e := ec t
      rw [ht.ev] at e
      simp only [evSubInd, ht.ev, e, LSub.eval, hs, htr.ev, constrVal]
      cases s.range <;> rfl
    · have f3 : Rd None' (opt (resolution (env M))) wr ((wm ++ wc) ++ R) (some (Resol.name tr)) := Rd.some (Rd.orL (Rd.map (g := Resol.name) fr))
      exact Rd.bindN f3 (f2 (.name tr))


/-! ## Objects and interfaces -/

def LVars.Ok (v : LVars) : Prop := LSub.Ok v.type ∧ optOk v.init

/-- The type and the value of declared objects. -/
structure MV {V : Type} (A : Alg V) (v : VarList) (x : LVars) : Prop where
  ev : ∀ {S : Type} (f : Str → V → Option V → S), evVars A f v = x.eval A f
  ok : LVars.Ok x → okVars v

omit g hM in
theorem MV.mk' {ns : List Str} {t : SubInd} {s : LSub} {e : Option Expression} {i : Option LExpr} (m : MSb A t s) (h : OM (ME A) e i) :
    MV A ⟨ns, t, e⟩ ⟨ns, s, i⟩ :=
  ⟨fun f => by simp only [evVars, LVars.eval, m.ev, h.map (f := evExpression A) (g := LExpr.eval A) fun _ _ h => h.ev], fun o => ⟨m.ok o.1, h.ok o.2⟩⟩

/-- Behind the value of an object. -/
def afterVars : List VT := [.SEMI, .RPAREN]

theorem init_rd {o : Option LExpr} {w R : List VTok} (h : Opt' initToks o w) (hk : w.length ≤ k) (hR : Nx afterVars R) :
    ∃ t, OM (ME A) t o ∧ Rd Dm (initValue (env M)) w R t := by
  cases o with
  | none => cases h; exact ⟨none, trivial, Rd.none (bind_nil (hR.tok (by decide)))⟩
  | some e =>
    obtain ⟨u, v, rfl, hu, hv⟩ := h
    simp only [List.length_append] at hk
    obtain ⟨t, m, f⟩ := expr_rd g hM hv (R := R) (by omega) (hR.mono (by decide))
    exact ⟨some t, m, Rd.some (Rd.tok hu (f.mono fun s hs => hs.mid.dm))⟩

omit g hM in
theorem init_nx {o : Option LExpr} {w R : List VTok} (h : Opt' initToks o w) (hR : Nx afterVars R) : Nx [.SEMI, .RPAREN, .VARASGN] (w ++ R) := by
  cases o with
  | none => cases h; exact hR.mono (by decide)
  | some e =>
    obtain ⟨u, v, rfl, hu, -⟩ := h
    exact Nx.cat hu (by decide)

omit g hM in
theorem init_stay : Stay Dm (initValue (env M)) := Stay.opt (Dead.bind (Dead.tok rfl))

/-- `type := value` -/
theorem typeInit_rd {α : Type} {s : LSub} {o : Option LExpr} {w R : List VTok} (h : Cat s.Toks (Opt' initToks o) w) (hk : w.length ≤ k)
    (hR : Nx afterVars R) (f : SubInd → Option Expression → α) :
    ∃ t e, (MSb A t s ∧ OM (ME A) e o) ∧ Rd Dm ((env M).subInd >>= fun t => initValue (env M) >>= fun v => pure (f t v)) w R (f t e) := by
  obtain ⟨u, v, rfl, hu, hv⟩ := h
  simp only [List.length_append] at hk
  obtain ⟨e, me, fe⟩ := init_rd g hM hv (R := R) (by omega) hR
  obtain ⟨t, mt, ft⟩ := sub_rd g hM hu (R := v ++ R) (by omega) ((init_nx hv hR).closes (by decide))
  exact ⟨t, e, ⟨mt, me⟩, Rd.bind ft (Rd.map (g := f t) fe) fun c s hs => Stay.bind init_stay (fun a => Stay.ret _) s hs⟩

omit g hM in
theorem sigMode_rd {D : List VTok → Prop} {m : Option Mode} {w R : List VTok} (h : optMode m w) {L : List VT} (hR : Nx L R)
    (hL : ∀ m, VT.kw (modeKw m) ∉ L) : Rd D (opt signalMode) w R m := by
  cases m with
  | none =>
    cases h
    obtain ⟨y, s, rfl, hy⟩ := hR.cons
    refine Rd.none (toks_neg (fun a => ?_) s)
    intro hm
    simp only [List.mem_cons, Prod.mk.injEq, List.not_mem_nil, or_false] at hm
    rcases hm with ⟨h, -⟩ | ⟨h, -⟩ | ⟨h, -⟩ | ⟨h, -⟩ | ⟨h, -⟩ <;> rw [h] at hy
    exacts [hL .in_ hy, hL .out hy, hL .inout hy, hL .buffer hy, hL .linkage hy]
  | some m =>
    obtain ⟨y, rfl, hy⟩ := h
    refine Rd.some ?_
    rw [Rd]
    refine First.of_eq ?_
    cases m <;> simp [signalMode, toks, alts, or_apply, bind_apply, pure_apply, tok_cons, hy, modeKw]

omit g hM in
theorem LSub.nx {s : LSub} {w R : List VTok} (h : s.Toks w) : ∃ t, next (w ++ R) = some t ∧ nameStart t = true := by
  obtain ⟨wr, _, rfl, hr, wm, wc, rfl, hm, hc⟩ := h
  cases hs : s.resol with
  | none =>
    rw [hs] at hr; cases hr
    obtain ⟨y, s, e, hy⟩ := LName.start hm
    exact ⟨y.ty, by simp [e, next_cons], hy⟩
  | some r =>
    rw [hs] at hr
    obtain ⟨y, s, e, hy⟩ := LName.start hr
    exact ⟨y.ty, by simp [e, next_cons], hy⟩

omit g hM in
theorem LSub.not {s : LSub} {w R : List VTok} (h : s.Toks w) {t : VT} (ht : nameStart t = false) : next (w ++ R) ≠ some t := by
  obtain ⟨t', e, h'⟩ := LSub.nx (R := R) h
  rw [e]; intro e; cases e; rw [ht] at h'; cases h'

omit g hM in
theorem optMode_nx {m : Option Mode} {s : LSub} {o : Option LExpr} {wm w R : List VTok} (h : Cat s.Toks (Opt' initToks o) w) (hm : optMode m wm) :
    Rd None' (opt signalMode) wm (w ++ R) m := by
  obtain ⟨u, v, rfl, hu, hv⟩ := h
  obtain ⟨t, e, ht⟩ := LSub.nx (R := v ++ R) hu
  rw [← List.append_assoc] at e
  refine sigMode_rd hm (L := [t]) ⟨t, e, by simp⟩ fun m hm => ?_
  simp only [List.mem_cons, List.not_mem_nil, or_false] at hm
  rw [← hm] at ht; cases m <;> cases ht

omit g hM in
theorem flag_skip {β : Type} {t : VT} {f : Bool → P β} {R : List VTok} (h : next R ≠ some t) : (flag t >>= f) R = f false R := by
  have : flag t R = [(false, R)] := by rw [flag, bind_apply, opt_none (tok_next h)]; rfl
  rw [bind_apply, this]; simp

/-- No `signal` except for ports, no constants as ports, variables only as parameters. -/
def LIntf.Ok (c : ICtx) : LIntf → Prop
  | .const v _ => LVars.Ok v ∧ c ≠ .port
  | .sig kw v _ => LVars.Ok v ∧ (c = .port ∨ kw = false)
  | .var v _ => LVars.Ok v ∧ c = .param

structure MIn {V : Type} (A : Alg V) (t : Intf) (i : LIntf) : Prop where
  ev : ∀ {S : Type} (B : SAlg V S) (c : ICtx), evIntf A B c t = i.eval A B c
  ok : ∀ c, LIntf.Ok c i → okIntf c t

theorem intf_rd {il : P (List Intf)} {i : LIntf} {w R : List VTok} (h : i.Toks w) (hk : w.length ≤ k) (hR : Nx afterVars R) :
    ∃ t, MIn A t i ∧ Rd Dm (interfaceElement (env M) il) w R t := by
  cases i with
  | const v b =>
    obtain ⟨w0, _, rfl, h0, w1, _, rfl, h1, w2, _, rfl, h2, w3, w4, rfl, h3, h4⟩ := h
    simp only [List.length_append] at hk
    obtain ⟨t, e, ⟨mt, me⟩, f⟩ := typeInit_rd g hM h4 (R := R) (by omega) hR fun t e => Intf.const ⟨v.names, t, e⟩ b
    have m := MV.mk' (ns := v.names) mt me
    refine ⟨.const ⟨v.names, t, e⟩ b, ⟨fun B c => ?_, fun c o => ⟨m.ok o.1, o.2⟩⟩, Rd.orL (Rd.orL (Rd.tok h0 (Rd.bindN (idents_rd h1 ?_) (Rd.tok h2 (Rd.bindN (flag_rd h3 ?_) f)))))⟩
    · simp only [evIntf, LIntf.eval, m.ev]
    · obtain ⟨y, rfl, hy⟩ := h2
      rw [List.append_assoc, List.cons_append, next_cons, hy]; decide
    · obtain ⟨u, v, rfl, hu, -⟩ := h4
      rw [List.append_assoc]
      exact LSub.not hu rfl
  | sig kw v m =>
    obtain ⟨w0, _, rfl, h0, w1, _, rfl, h1, w2, _, rfl, h2, w3, w4, rfl, h3, h4⟩ := h
    simp only [List.length_append] at hk
    have hmd := optMode_nx (R := R) h4 h3
    obtain ⟨u, z, rfl, hu, hz⟩ := h4
    simp only [List.length_append] at hk
    obtain ⟨e, me, fe⟩ := init_rd g hM hz (R := R) (by omega) hR
    obtain ⟨t, mt, ft⟩ := sub_rd g hM hu (R := z ++ R) (by omega) ((init_nx hz hR).closes (by decide))
    have mv := MV.mk' (ns := v.names) mt me
    have hn := idents_nx (R := (w2 ++ (w3 ++ (u ++ z))) ++ R) h1
    refine ⟨.sig kw ⟨v.names, t, e⟩ m false, ⟨fun B c => ?_, fun c o => ⟨mv.ok o.1, rfl, o.2⟩⟩, Rd.orL (Rd.orN ?_ (Rd.orL (Rd.bindN (flag_rd h0 ?_)
      (Rd.bindN (idents_rd h1 ?_) (Rd.tok h2 (Rd.bindN hmd (Rd.bind (D' := Dm) ft ?_ fun c s hs => ?_)))))))⟩
    · cases kw with
      | true => simp only [evIntf, LIntf.eval, mv.ev, if_true]
      | false =>
        simp only [evIntf, LIntf.eval, mv.ev, Bool.false_eq_true, if_false]
        cases c <;> rfl
    · refine bind_nil ?_
      cases kw with
      | false => cases h0; rw [List.nil_append, List.append_assoc]; exact hn.tok (by decide)
      | true => exact (Nx.cat (L := [.kw .SIGNAL]) h0 (by decide)).tok (by decide)
    · rw [List.append_assoc]; exact hn.not (by decide)
    · obtain ⟨y, rfl, hy⟩ := h2
      rw [List.append_assoc, List.cons_append, next_cons, hy]; decide
    · have f0 : Rd Dm (flag (.kw .BUS)) [] (z ++ R) false := flag_rd rfl ((init_nx hz hR).not (by decide))
      exact Rd.bind (v := z) f0 (Rd.map (g := fun x => Intf.sig kw ⟨v.names, t, x⟩ m false) fe) fun c s hs => Stay.bind init_stay (fun a => Stay.ret _) s hs
    · exact Stay.bind (Stay.bind (Stay.opt (Dead.tok rfl)) fun _ => Stay.ret _) (fun _ => Stay.bind init_stay fun a => Stay.ret _) s hs
  | var v m =>
    obtain ⟨w0, _, rfl, h0, w1, _, rfl, h1, w2, _, rfl, h2, w3, w4, rfl, h3, h4⟩ := h
    simp only [List.length_append] at hk
    obtain ⟨t, e, ⟨mt, me⟩, f⟩ := typeInit_rd g hM h4 (R := R) (by omega) hR fun t e => Intf.var ⟨v.names, t, e⟩ m
    have mv := MV.mk' (ns := v.names) mt me
    have hn : Nx [.kw .VARIABLE] ((w0 ++ (w1 ++ (w2 ++ (w3 ++ w4)))) ++ R) := Nx.cat h0 (by decide)
    refine ⟨.var ⟨v.names, t, e⟩ m, ⟨fun B c => ?_, fun c o => ⟨mv.ok o.1, o.2⟩⟩, Rd.orL (Rd.orN (bind_nil (hn.tok (by decide))) (Rd.orN ?_ (Rd.orL
      (Rd.tok h0 (Rd.bindN (idents_rd h1 ?_) (Rd.tok h2 (Rd.bindN (optMode_nx h4 h3) f)))))))⟩
    · simp only [evIntf, LIntf.eval, mv.ev]
    · exact (flag_skip (t := .kw .SIGNAL) (hn.not (by decide))).trans (bind_nil (bind_nil (ident_no hn (by decide) (by decide))))
    · obtain ⟨y, rfl, hy⟩ := h2
      rw [List.append_assoc, List.cons_append, next_cons, hy]; decide


omit g hM in
theorem intfs_eq {ts : List Intf} {l : List LIntf} (h : List.Forall₂ (MIn A) ts l) (c : ICtx) :
    (∀ {S : Type} (B : SAlg V S), ts.flatMap (evIntf A B c) = l.flatMap (LIntf.eval A B c)) ∧ ((∀ i ∈ l, LIntf.Ok c i) → okIntfs c ts) := by
  induction h with
  | nil => exact ⟨fun B => rfl, fun _ i hi => nomatch hi⟩
  | cons h1 _ ih =>
    refine ⟨fun B => ?_, fun o i hi => ?_⟩
    · simp only [List.flatMap_cons, h1.ev, ih.1 B]
    · rcases List.mem_cons.1 hi with rfl | hi
      · exact h1.ok c (o _ (by simp))
      · exact ih.2 (fun i hi => o i (by simp [hi])) i hi

theorem intfs_rd {d : Nat} {l : List LIntf} {w R : List VTok} (h : Sep .SEMI LIntf.Toks l w) (hk : w.length ≤ k) (hR : Nx [.RPAREN] R) :
    ∃ ts, List.Forall₂ (MIn A) ts l ∧ Rd Dm (interfaceList (env M) (d + 1)) w R ts :=
  sep_rd (T := LIntf.Toks) (Mx := MIn A) (D := Dm) (C := Nx [.RPAREN]) (k := k) (fun R hR => hR.not (by decide)) (fun s hs => hs.ne rfl)
    (fun b u R hb hk hR => intf_rd g hM hb hk (by rcases hR with h | h; exacts [⟨_, h, by decide⟩, h.mono (by decide)])) h hk hR

theorem params_rd {d : Nat} {l : List LIntf} {w R : List VTok} (h : paramsToks l w) (hk : w.length ≤ k) {L : List VT} (hR : Nx L R)
    (h1 : VT.LPAREN ∉ L) (h2 : VT.kw .PARAMETER ∉ L) : ∃ ts, List.Forall₂ (MIn A) ts l ∧ Rd None' (parameterList (interfaceList (env M) (d + 1))) w R ts := by
  cases l with
  | nil =>
    cases h
    refine ⟨[], .nil, Rd.map (g := fun x : Option (List Intf) => x.getD []) (a := none) (Rd.none ?_)⟩
    rw [bind_apply, opt_none (hR.tok h2)]
    simp only [List.flatMap_cons, List.flatMap_nil, List.append_nil]
    exact bind_nil (hR.tok h1)
  | cons i l =>
    obtain ⟨w0, _, rfl, h0, w1, w2, rfl, h3, h4⟩ := h
    simp only [List.length_append] at hk
    obtain ⟨ts, m, f⟩ := intfs_rd (d := d) g hM h3 (R := w2 ++ R) (by omega) (Nx.one h4 (by decide))
    refine ⟨ts, m, Rd.map (g := fun x : Option (List Intf) => x.getD []) (a := some ts) (Rd.some ?_)⟩
    have f0 : Rd None' (opt (tok (.kw .PARAMETER))) [] ((w0 ++ (w1 ++ w2)) ++ R) none := Rd.none ((Nx.cat (L := [.LPAREN]) h0 (by decide)).tok (by decide))
    exact Rd.bindN (v := w0 ++ (w1 ++ w2)) f0 (Rd.tok h0 (Rd.head f (Rd.last h4) fun c s hs => Dead.bind (Dead.tok rfl) s hs))

/-- An interface clause. -/
theorem clause_rd {d : Nat} {K : Kw} {l : List LIntf} {w R : List VTok} (h : clauseToks K l w) (hk : w.length ≤ k) (hR : next R ≠ some (.kw K)) :
    ∃ ts : Option (List Intf), List.Forall₂ (MIn A) (ts.getD []) l ∧ Rd None' (opt (do
      let _ ← tok (.kw K)
      let _ ← tok .LPAREN
      let l ← interfaceList (env M) (d + 1)
      let _ ← tok .RPAREN
      let _ ← tok .SEMI
      return l)) w R ts := by
  cases l with
  | nil => cases h; exact ⟨none, .nil, Rd.none (bind_nil (tok_next hR))⟩
  | cons i l =>
    obtain ⟨w0, _, rfl, h0, w1, _, rfl, h1, w2, _, rfl, h2, w3, w4, rfl, h3, h4⟩ := h
    simp only [List.length_append] at hk
    obtain ⟨ts, m, f⟩ := intfs_rd (d := d) g hM h2 (R := (w3 ++ w4) ++ R) (by omega) (Nx.cat h3 (by decide))
    exact ⟨some ts, m, Rd.some (Rd.tok h0 (Rd.tok h1 (Rd.head f (Rd.tok h3 (Rd.last h4)) fun c s hs => Dead.bind (Dead.tok rfl) s hs)))⟩

end
end Verif.Vhdl
