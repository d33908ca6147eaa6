import Verif.SvItemHead
/-!
# The parse of SystemVerilog instances, continuous assignments and the heads of generate loops
-/
namespace Verif.Sv
open P Verif.Spec.SvLrm Verif.Spec.Sv

variable {V S W : Type} {A : Alg V} {Bs : SAlg V S} {N : MAlg V S W} {B : Rules} {C : StmRules} {G : ItemRules}

/-! ## Connections -/

/-- `,` or `)` -/
theorem CommaPar.par {y : STok} (h : y.ty = .RPAREN) (s : List STok) : CommaPar (y :: s) := ⟨y, s, rfl, .inr h⟩
theorem CommaPar.comma {y : STok} (h : y.ty = .COMMA) (s : List STok) : CommaPar (y :: s) := ⟨y, s, rfl, .inl h⟩
theorem CommaPar.eNo {R : List STok} (h : CommaPar R) : ∀ y s, R = y :: s → eNo y.ty = true ∧ y.ty ≠ .LPAREN := by
  obtain ⟨y, s, rfl, h | h⟩ := h <;> (rintro _ _ ⟨⟩; rw [h]; decide)

variable (A) in
structure MCo (t : Option Exp) (e : Option SExp) : Prop where
  ev : t.map (evExp A) = e.map (SExp.eval A)
  ok : connOk e → ∀ x, t = some x → okConnVal x

theorem ordered_first {M : Nat} (e : Option SExp) (w R : List STok) (h : optToks e w) (hM : w.length < M) (hR : CommaPar R) :
    ∃ t, MCo A t e ∧ First None' (orderedPortConnection (env B M)) (w ++ R) t R := by
  cases e with
  | none =>
    rw [optToks, Spec.SvLrm.Empty] at h; subst h
    refine ⟨none, ⟨rfl, fun _ x e => by cases e⟩, First.bindH (a := []) (r1 := R) (First.of_eq ?_) (First.noneE ((expression_eNo B M 0) _ fun y s e => (hR.eNo y s e).1))⟩
    obtain ⟨y, s, rfl, hy⟩ := hR
    exact attributes_ne (by rcases hy with h | h <;> rw [h] <;> decide)
  | some e =>
    obtain ⟨t, ht, hc, ft⟩ := conn_first (A := A) (B := B) h hM hR.sep
    refine ⟨some t, ⟨by simp [ht.ev], ?_⟩, First.bindH (First.of_eq (attributes_none (exp_begins e w h) _)) (First.some ft)⟩
    rintro ⟨h1, h2⟩ _ ⟨⟩
    exact hc h1 h2

variable (A) in
structure MNc (t : NamedConn) (c : SNamedConn) : Prop where
  ev : evNamedConn A t = c.eval A
  ok : c.Ok → okNamedConn t

theorem named_head {c : SNamedConn} {w : List STok} (h : c.Toks w) : ∃ x v, w = x :: v ∧ x.ty = .DOT := by
  cases c <;> rw [SNamedConn.Toks] at h <;> obtain ⟨_, _, rfl, ⟨x, rfl, hx⟩, -⟩ := h <;> exact ⟨x, _, rfl, hx⟩

theorem named_first {M : Nat} (c : SNamedConn) (w R : List STok) (h : c.Toks w) (hM : w.length < M) (_ : CommaPar R) :
    ∃ t, MNc A t c ∧ First None' (namedPortConnection (env B M)) (w ++ R) t R := by
  have ha : ∀ {x : STok} {v : List STok}, x.ty = .DOT → First None' (attributes (env B M)) (x :: v) [] (x :: v) := fun hx =>
    First.of_eq (attributes_ne (by rw [hx]; decide))
  cases c with
  | star =>
    rw [SNamedConn.Toks] at h
    obtain ⟨_, _, rfl, ⟨x, rfl, hx⟩, ⟨y, rfl, hy⟩⟩ := h
    exact ⟨.star, ⟨rfl, fun _ => trivial⟩, First.bindH (ha hx) (First.bindH (First.tok hx _) (First.orL (First.bindH (First.tok hy _) (First.ret _ _))))⟩
  | empty i =>
    rw [SNamedConn.Toks] at h
    obtain ⟨_, _, rfl, ⟨x, rfl, hx⟩, _, _, rfl, ⟨y, rfl, hy⟩, _, _, rfl, ⟨o, rfl, ho⟩, ⟨c, rfl, hc⟩⟩ := h
    refine ⟨.empty i, ⟨rfl, fun h => h⟩, First.bindH (ha hx) (First.bindH (First.tok hx _) (First.orN (bind_nil (tok_neg (ident_notPath hy rfl) _))
      (First.bindH (identifier_first hy _) (First.bindH (a := some none) (First.some (First.bindH (First.tok ho _) (First.bindH (a := none)
      (First.noneE ((expression_eNo B M 0).cons (by rw [hc]; rfl))) (First.bindH (First.tok hc _) (First.ret _ _))))) (First.ret _ _)))))⟩
  | val i e =>
    rw [SNamedConn.Toks] at h
    obtain ⟨_, _, rfl, ⟨x, rfl, hx⟩, _, _, rfl, ⟨y, rfl, hy⟩, _, _, rfl, ⟨o, rfl, ho⟩, u, _, rfl, hu, ⟨c, rfl, hc⟩⟩ := h
    simp only [List.length_append, List.length_cons, List.length_nil] at hM
    obtain ⟨t, ht, hn, ft⟩ := conn_first (A := A) (B := B) hu (M := M) (by omega) (R := c :: R) (.of hc _ rfl rfl)
    refine ⟨.val i t, ⟨?_, fun h => ⟨h.1, hn h.2.1 h.2.2⟩⟩, ?_⟩
    · rw [evNamedConn, SNamedConn.eval, ht.ev]
    · simp only [List.append_assoc, List.cons_append, List.nil_append]
      exact First.bindH (ha hx) (First.bindH (First.tok hx _) (First.orN (bind_nil (tok_neg (ident_notPath hy rfl) _))
        (First.bindH (identifier_first hy _) (First.bindH (a := some (some t)) (First.some (First.bindH (First.tok ho _) (First.bindH (a := some t)
        (First.some ft) (First.bindH (First.tok hc _) (First.ret _ _))))) (First.ret _ _)))))

variable (A) in
structure MCs (t : Conns) (c : SConns) : Prop where
  ev : evConns A t = c.eval A
  ok : c.Ok → okConns t

/-- Only a connection by name goes on with a dot. -/
def DotNext (R : List STok) : Prop := ∃ y s, R = y :: s ∧ y.ty = .DOT

theorem conns_first {M : Nat} {c : SConns} {w : List STok} (h : c.Toks w) (hM : w.length < M) {y : STok} (hy : y.ty = .RPAREN) (R : List STok) :
    ∃ t, MCs A t c ∧ First DotNext (listOfPortConnections (env B M)) (w ++ y :: R) t (y :: R) := by
  cases c with
  | pos a l =>
    rw [SConns.Toks] at h
    obtain ⟨u, v, rfl, hu, hv⟩ := h
    obtain ⟨ts, ht, ft⟩ := commas_first (D := None') (p := orderedPortConnection (env B M)) (T := optToks) (M := MCo A) (N := M) (Rst := CommaPar)
      (fun a u R h hN hR => ordered_first a u R h hN hR) (fun z R hz => .comma hz R) (fun r h => h.elim) a l u v (y :: R) hu hv hM (.par hy R)
      (tok_neg (by rw [hy]; decide) _)
    refine ⟨.ordered ts, ⟨?_, ?_⟩, First.orL (by rw [List.append_assoc]; exact (First.bindH ft (First.ret _ _)))⟩
    · rw [evConns, SConns.eval]
      exact all2_map (fun a b h => by rw [h.ev]) ht
    · intro h e he
      exact all2_all (q := connOk) (p := fun t => ∀ x, t = some x → okConnVal x) (fun a b h => h.ok) ht h _ he e rfl
  | named a l =>
    rw [SConns.Toks] at h
    obtain ⟨u, v, rfl, hu, hv⟩ := h
    obtain ⟨ts, ht, ft⟩ := commas_first (D := None') (p := namedPortConnection (env B M)) (T := SNamedConn.Toks) (M := MNc A) (N := M) (Rst := CommaPar)
      (fun a u R h hN hR => named_first a u R h hN hR) (fun z R hz => .comma hz R) (fun r h => h.elim) a l u v (y :: R) hu hv hM (.par hy R)
      (tok_neg (by rw [hy]; decide) _)
    refine ⟨.named ts, ⟨?_, ?_⟩, First.orR ?_ (by rw [List.append_assoc]; exact (First.bindH ft (First.ret _ _)))⟩
    · rw [evConns, SConns.eval]
      exact all2_map (fun a b h => by rw [h.ev]) ht
    · intro h
      exact all2_all (q := SNamedConn.Ok) (p := okNamedConn) (fun a b h => h.ok) ht h
    · obtain ⟨x, u, rfl, hx⟩ := named_head hu
      simp only [List.append_assoc, List.cons_append]
      generalize u ++ (v ++ y :: R) = Q
      have h1 : orderedPortConnection (env B M) (x :: Q) = [(none, x :: Q)] := by
        rw [orderedPortConnection, bind_apply, attributes_ne (by rw [hx]; decide)]
        simp only [List.flatMap_cons, List.flatMap_nil, List.append_nil]
        exact opt_none ((expression_eNo B M 0).cons (by rw [hx]; rfl))
      have h2 : P.sepBy .COMMA (orderedPortConnection (env B M)) (x :: Q) = [([none], x :: Q)] := by
        show (orderedPortConnection (env B M) >>= fun a => many _ >>= fun l => pure (a :: l)) (x :: Q) = _
        rw [bind_apply, h1]
        simp only [List.flatMap_cons, List.flatMap_nil, List.append_nil]
        rw [bind_apply, many_none (bind_nil (tok_neg (by rw [hx]; decide) _))]
        rfl
      intro z hz
      obtain ⟨b, r, h3, h4⟩ := mem_bind.1 hz
      rw [h2, List.mem_singleton] at h3
      cases h3
      rw [mem_pure] at h4
      subst h4
      exact ⟨x, Q, rfl, hx⟩

variable (A) in
structure MHi (t : HierInst) (a : Ident × SConns) : Prop where
  name : t.name = a.1
  dims : t.dims = []
  conns : MCs A t.conns a.2

theorem hier_first {M : Nat} (a : Ident × SConns) (w R : List STok) (h : instToks a w) (hM : w.length < M) (_ : CommaSemi R) :
    ∃ t, MHi A t a ∧ First None' (hierarchicalInstance (env B M)) (w ++ R) t R := by
  obtain ⟨_, _, rfl, ⟨x, rfl, hx⟩, _, _, rfl, ⟨o, rfl, ho⟩, u, _, rfl, hu, ⟨c, rfl, hc⟩⟩ := h
  simp only [List.length_append, List.length_cons, List.length_nil] at hM
  obtain ⟨t, ht, ft⟩ := conns_first (A := A) (B := B) hu (M := M) (by omega) hc R
  refine ⟨⟨a.1, [], t⟩, ⟨rfl, rfl, ht⟩, ?_⟩
  simp only [List.append_assoc, List.cons_append, List.nil_append]
  refine First.bindH (a := (a.1, [])) (r1 := o :: (u ++ c :: R)) (First.bindH (identifier_first hx _) (First.bindH (a := []) (First.of_eq (many_none (bind_nil (tok_neg (by rw [ho]; decide) _))))
    (First.ret _ _))) (First.bindH (First.tok ho _) (First.head ft (First.bindH (First.tok hc _) (First.ret _ _)) ?_))
  rintro _ _ ⟨y, s, rfl, hy⟩
  exact bind_nil (tok_neg (by rw [hy]; decide) _)

/-! ## Parameters -/

variable (A) in
structure MNp (t : NamedP) (p : Ident × SExp) : Prop where
  ev : evNamedP A t = A.bin "=>" (A.ident p.1) (p.2.eval A)
  ok : okIdent p.1 ∧ p.2.Ok → okNamedP t

theorem namedParam_first {M : Nat} (a : Ident × SExp) (w R : List STok) (h : paramToks a w) (hM : w.length < M) (_ : CommaPar R) :
    ∃ t, MNp A t a ∧ First None' (namedParameterAssignment (env B M)) (w ++ R) t R := by
  obtain ⟨_, _, rfl, ⟨x, rfl, hx⟩, _, _, rfl, ⟨y, rfl, hy⟩, _, _, rfl, ⟨o, rfl, ho⟩, u, _, rfl, hu, ⟨c, rfl, hc⟩⟩ := h
  simp only [List.length_append, List.length_cons, List.length_nil] at hM
  obtain ⟨t, ht, ft⟩ := exp_first (A := A) (B := B) hu (M := M) (by omega) (R := c :: R) (.of hc _ rfl rfl)
  refine ⟨.val a.1 (.mtm (.one t)), ⟨?_, ?_⟩, ?_⟩
  · rw [evNamedP, evPExpr, evMTM, ht.ev]
  · intro h; rw [okNamedP, okPExpr, okMTM]; exact ⟨h.1, ht.ok h.2⟩
  · simp only [List.append_assoc, List.cons_append, List.nil_append]
    exact First.bindH (First.tok hx _) (First.bindH (identifier_first hy _) (First.bindH (First.tok ho _) (First.bindH (a := some (.mtm (.one t))) (First.some
      (First.orL (First.bindH (a := .one t) (First.bindH ft (First.bindH (a := none) (First.noneE (bind_nil (tok_neg (by rw [hc]; decide) _))) (First.ret _ _))) (First.ret _ _))))
      (First.bindH (First.tok hc _) (First.ret _ _)))))

theorem namedPs_ev {ts : List NamedP} {l : List (Ident × SExp)} (h : All2 (MNp A) ts l) : evNamedPs A ts = l.map fun p => A.bin "=>" (A.ident p.1) (p.2.eval A) := by
  induction h with
  | nil => rfl
  | cons h1 h2 ih => rw [evNamedPs, List.map_cons, h1.ev, ih]
theorem namedPs_ok {ts : List NamedP} {l : List (Ident × SExp)} (h : All2 (MNp A) ts l) (ho : ∀ p ∈ l, okIdent p.1 ∧ p.2.Ok) : okNamedPs ts := by
  induction h with
  | nil => trivial
  | cons h1 h2 ih => rw [okNamedPs]; exact ⟨h1.ok (ho _ (by simp)), ih fun p hp => ho p (by simp [hp])⟩

variable (A) in
structure MPv (t : PVA) (l : List (Ident × SExp)) : Prop where
  ev : evParamMap A t = l.map fun p => A.bin "=>" (A.ident p.1) (p.2.eval A)
  ok : (∀ p ∈ l, okIdent p.1 ∧ p.2.Ok) → okPVA t

theorem params_first {M : Nat} {l : List (Ident × SExp)} {w : List STok} (h : paramsToks l w) (hM : w.length < M) {y : STok} (hy : isIdTok y.ty = true) (R : List STok) :
    ∃ t, MPv A t l ∧ First None' (pvaOpt (env B M)) (w ++ y :: R) t (y :: R) := by
  cases l with
  | nil =>
    rw [paramsToks, Spec.SvLrm.Empty] at h; subst h
    exact ⟨.none, ⟨rfl, fun _ => trivial⟩, First.bindH (a := none) (First.noneE (bind_nil (tok_neg (by intro e; rw [e] at hy; cases hy) _))) (First.ret _ _)⟩
  | cons a l =>
    rw [paramsToks] at h
    obtain ⟨_, _, rfl, ⟨x, rfl, hx⟩, _, _, rfl, ⟨o, rfl, ho⟩, _, _, rfl, ⟨u, v, rfl, hu, hv⟩, ⟨c, rfl, hc⟩⟩ := h
    simp only [List.length_append, List.length_cons, List.length_nil] at hM
    obtain ⟨ts, ht, ft⟩ := commas_first (D := None') (p := namedParameterAssignment (env B M)) (T := paramToks) (M := MNp A) (N := M) (Rst := CommaPar)
      (fun a u R h hN hR => namedParam_first a u R h hN hR) (fun z R hz => .comma hz R) (fun r h => h.elim) a l u v (c :: y :: R) hu hv
      (by simp only [List.length_append]; omega) (.par hc _) (tok_neg (by rw [hc]; decide) _)
    refine ⟨.named ts, ⟨namedPs_ev ht, fun h => ?_⟩, ?_⟩
    · rw [okPVA]; exact namedPs_ok ht h
    · simp only [List.append_assoc, List.cons_append, List.nil_append]
      refine First.bindH (a := some (.named ts)) (r1 := y :: R) (First.some (First.bindH (First.tok hx _) (First.bindH (First.tok ho _) (First.bindH (a := some (.named ts)) (r1 := c :: y :: R) (First.some ?_)
        (First.bindH (First.tok hc _) (First.ret _ _)))))) (First.ret _ _)
      refine First.orN (bind_nil (bind_nil ?_)) (First.bindH ft (First.ret _ _))
      obtain ⟨_, _, rfl, ⟨d, rfl, hd⟩, -⟩ := hu
      simp only [List.append_assoc, List.cons_append]
      exact NoAt.cons (N := eNo) (.or (.bind (.bind (expression_eNo B M 0))) (.bind (dataType_eNo B M))) (by rw [hd]; rfl)

/-! ## Instances -/

theorem inst_first {M : Nat} {m : Ident} {ps : List (Ident × SExp)} {a : Ident × SConns} {l : List (Ident × SConns)} {w : List STok} (h : (SItem.inst m ps a l).Toks w)
    (hM : w.length < M) (R : List STok) : ∃ t, (evInst A N t = (SItem.inst m ps a l).eval A Bs N ∧ ((SItem.inst m ps a l).Ok → okInst t) ∧ t.insts.length = l.length + 1) ∧
    First None' (moduleInstantiation (env B M)) (w ++ R) t R := by
  rw [SItem.Toks] at h
  obtain ⟨_, _, rfl, ⟨x, rfl, hx⟩, p, _, rfl, hp, u, _, rfl, hu, v, _, rfl, hv, ⟨z, rfl, hz⟩⟩ := h
  have hu0 := hu
  obtain ⟨_, u', e', ⟨y, rfl, hy⟩, -⟩ := hu0
  simp only [List.length_append, List.length_cons, List.length_nil] at hM
  obtain ⟨tp, mp, fp⟩ := params_first (A := A) (B := B) hp (M := M) (by omega) (ident_id hy) (u' ++ (v ++ z :: R))
  obtain ⟨ts, ht, ft⟩ := commas_first (D := None') (p := hierarchicalInstance (env B M)) (T := instToks) (M := MHi A) (N := M) (Rst := CommaSemi)
    (fun a u R h hN hR => hier_first a u R h hN hR) (fun z R hz => ⟨z, R, rfl, .inl hz⟩) (fun r h => h.elim) a l u v (z :: R) hu hv
    (by simp only [List.length_append]; omega) ⟨z, R, rfl, .inr hz⟩ (tok_neg (by rw [hz]; decide) _)
  refine ⟨⟨m, tp, ts⟩, ⟨?_, ?_, ?_⟩, ?_⟩
  · rw [evInst, SItem.eval]
    refine all2_map (fun a b h => ?_) ht
    rw [h.name, h.dims, mp.ev, h.conns.ev]; rfl
  · intro h
    rw [SItem.Ok] at h
    refine ⟨h.1.1, h.1.2.1, h.1.2.2, mp.ok h.2.1, ?_⟩
    refine all2_all (q := fun x : Ident × SConns => okIdent x.1 ∧ x.2.Ok) (p := okHierInst) (fun a b h h' => ?_) ht h.2.2
    exact ⟨by rw [h.name]; exact h'.1, by rw [h.dims]; simp, h.conns.ok h'.2⟩
  · have : ∀ {ts : List HierInst} {l : List (Ident × SConns)}, All2 (MHi A) ts l → ts.length = l.length := fun h => by
      induction h with
      | nil => rfl
      | cons _ _ ih => simp [ih]
    simpa using this ht
  · subst e'
    simp only [List.append_assoc, List.cons_append, List.nil_append] at fp ft ⊢
    exact First.bindH (identifier_first hx _) (First.bindH fp (First.bindH ft (First.bindH (First.tok hz _) (First.ret _ _))))

theorem delayValue_noPar (E : Env) {x : STok} (hx : x.ty = .LPAREN) (R : List STok) : delayValue E (x :: R) = [] := by
  have hi : NoAt (fun t => t == .LPAREN) identifier := identifier_no.mono fun t h => by rw [eq_of_beq h]; rfl
  have hh : NoAt (fun t => t == .LPAREN) (hierarchicalIdentifier E) := (hierId_no E).mono fun t h => by rw [eq_of_beq h]; rfl
  have : NoAt (fun t => t == .LPAREN) (delayValue E) := by
    noat_alts
    exact ⟨.bind (.tok rfl), .bind (.tok rfl), .bind (.tok rfl), .bind (.texts (by decide)), .bind (.optBind (.bind (.or (.bind (.tok rfl)) (.bind hi))) (.bind hi)), .bind hh, by simp⟩
  exact this.cons (by rw [hx]; rfl)

/-- An instance is not taken for one of a primitive. -/
theorem inst_udp {M : Nat} {m : Ident} {ps : List (Ident × SExp)} {a : Ident × SConns} {l : List (Ident × SConns)} {w : List STok} (h : (SItem.inst m ps a l).Toks w)
    (R : List STok) : udpInstantiation G (env B M) (w ++ R) = [] := by
  rw [SItem.Toks] at h
  obtain ⟨_, _, rfl, ⟨x, rfl, hx⟩, p, _, rfl, hp, _, v, rfl, ⟨_, u', rfl, ⟨y, rfl, hy⟩, -⟩, -⟩ := h
  refine List.eq_nil_iff_forall_not_mem.2 fun z hz => ?_
  obtain ⟨b, r, h1, h2⟩ := mem_bind.1 hz
  obtain ⟨x', e⟩ := ident_rest h1
  simp only [List.append_assoc, List.cons_append, List.nil_append, List.cons.injEq] at e
  obtain ⟨-, e⟩ := e
  subst e
  have key : ∀ {y : STok} {s : List STok}, G.driveStrength (y :: s) = [] → delay2 (env B M) (y :: s) = [] → y.ty ≠ .LPAREN →
      ∀ {γ : Type} {f : P γ}, (opt (udpHead G (env B M)) >>= fun _ => udpInstanceBody (env B M) >>= fun _ => f) (y :: s) = [] := fun {y s} h3 h4 h5 => by
    intro γ f
    have h6 : udpHead G (env B M) (y :: s) = [] := by
      rw [udpHead, or_apply, bind_nil h3, bind_nil h4]; rfl
    rw [bind_apply, opt_none h6]
    simp only [List.flatMap_cons, List.flatMap_nil, List.append_nil]
    exact bind_nil (bind_nil (tok_neg h5 _))
  cases ps with
  | nil =>
    rw [paramsToks, Spec.SvLrm.Empty] at hp; subst hp
    have hid := ident_id hy
    refine nil_mem h2 (key (G.drive_no.2 _ _ (by simp [id_mem hid])) (bind_nil (tok_neg ?_ _)) ?_) <;> intro e <;> rw [e] at hid <;> cases hid
  | cons a l =>
    rw [paramsToks] at hp
    obtain ⟨_, _, rfl, ⟨d, rfl, hd⟩, _, _, rfl, ⟨o, rfl, ho⟩, _, _, rfl, ⟨_, _, rfl, ⟨_, _, rfl, ⟨q, rfl, hq⟩, -⟩, -⟩, -⟩ := hp
    refine nil_mem h2 (key (G.drive_no.2 _ _ (by rw [hd]; simp)) ?_ (by rw [hd]; decide))
    simp only [List.append_assoc, List.cons_append, List.nil_append]
    refine List.eq_nil_iff_forall_not_mem.2 fun z hz => ?_
    obtain ⟨_, r, h5, h6⟩ := mem_bind.1 hz
    obtain ⟨y', e', -⟩ := mem_tok.1 h5
    cases e'
    rcases mem_or.1 h6 with h6 | h6
    · obtain ⟨_, r, h7, h8⟩ := mem_bind.1 h6
      obtain ⟨y', e', -⟩ := mem_tok.1 h7
      cases e'
      exact nil_mem h8 (bind_nil (bind_nil ((expression_eNo B M 0).cons (by rw [hq]; rfl))))
    · exact nil_mem h6 (bind_nil (delayValue_noPar _ ho _))

theorem inst_item {M : Nat} {F : P Stm} {H : P GItem} {m : Ident} {ps : List (Ident × SExp)} {a : Ident × SConns} {l : List (Ident × SConns)} {w : List STok} (h : (SItem.inst m ps a l).Toks w)
    (hM : w.length < M) (R : List STok) : ∃ t, (evInst A N t = (SItem.inst m ps a l).eval A Bs N ∧ ((SItem.inst m ps a l).Ok → okInst t) ∧ t.insts.length = l.length + 1) ∧
    First None' (generateItemRule C G (env B M) F H) (w ++ R) (.item (.inst t)) R := by
  obtain ⟨t, ht, ft⟩ := inst_first (A := A) (Bs := Bs) (N := N) (B := B) h hM R
  have hu := inst_udp (G := G) (B := B) (M := M) h R
  refine ⟨t, ht, ?_⟩
  rw [SItem.Toks] at h
  obtain ⟨_, v, rfl, ⟨x, rfl, hx⟩, -⟩ := h
  have hid := ident_id hx
  refine gi_main (by intro e; rw [e] at hid; cases hid) (First.orN (bind_nil ?_) (First.orN (bind_nil ?_) (First.orN (bind_nil hu) (First.orL (First.bindH ft (First.ret _ _))))))
  · exact G.override_no.subR.2 _ _ (id_mem hid)
  · exact G.gate_no.subR.2 _ _ (id_mem hid)

/-! ## Assignments and `genvar` -/

theorem cassign_first {M : Nat} {a : SPrim × SExp} {l : List (SPrim × SExp)} {w : List STok} (h : (SItem.assign a l).Toks w) (hM : w.length < M) (R : List STok) :
    ∃ ts, All2 (MVa A) ts (a :: l) ∧ First None' (continuousAssign G (env B M)) (w ++ R) (.assign ts) R := by
  rw [SItem.Toks] at h
  obtain ⟨_, _, rfl, ⟨x, rfl, hx⟩, u, _, rfl, hu, v, _, rfl, hv, ⟨z, rfl, hz⟩⟩ := h
  simp only [List.length_append, List.length_cons, List.length_nil] at hM
  obtain ⟨ts, ht, ft⟩ := commas_first (D := None') (p := variableAssignment (env B M)) (T := fun a : SPrim × SExp => assignToks a.1 .ASSIGN a.2) (M := MVa A) (N := M) (Rst := CommaSemi)
    (fun a u R h hN hR => varAssign_first (a := a) h hN hR.sep) (fun z R hz => ⟨z, R, rfl, .inl hz⟩) (fun r h => h.elim) a l u v (z :: R) hu hv
    (by simp only [List.length_append]; omega) ⟨z, R, rfl, .inr hz⟩ (tok_neg (by rw [hz]; decide) _)
  refine ⟨ts, ht, ?_⟩
  obtain ⟨h1, u1, u2, rfl, h2, -⟩ := hu
  obtain ⟨y, s, rfl, hy⟩ := target_head h1 h2
  simp only [List.append_assoc, List.cons_append, List.nil_append] at ft ⊢
  refine First.bindH (First.tok hx _) (First.bindH (a := ts) (r1 := z :: R) (First.orL (First.bindH (a := none) (First.noneE ?_) (First.bindH (a := none) (First.noneE (bind_nil (tok_neg ?_ _))) ft)))
    (First.bindH (First.tok hz _) (First.ret _ _)))
  · refine G.drive_no.2 _ _ ?_
    rcases hy with hy | hy
    · simp [id_mem hy]
    · simp [hy]
  · intro e; rcases hy with hy | hy <;> rw [e] at hy <;> cases hy

theorem genvar_first {a : Ident} {l : List Ident} {w : List STok} (h : (SItem.genvar a l).Toks w) (R : List STok) :
    First None' genvarDeclaration (w ++ R) (.genvar (a :: l)) R := by
  rw [SItem.Toks] at h
  obtain ⟨_, _, rfl, ⟨x, rfl, hx⟩, u, _, rfl, hu, v, _, rfl, hv, ⟨z, rfl, hz⟩⟩ := h
  obtain ⟨ts, ht, ft⟩ := commas_first (D := None') (p := identifier) (T := fun i => OneP (Ident.Tok i)) (M := Eq) (N := (u ++ v).length + 1) (Rst := fun _ => True)
    (fun a u R h hN hR => ⟨a, rfl, by obtain ⟨x, rfl, hx⟩ := h; exact identifier_first hx R⟩) (fun z R hz => trivial) (fun r h => h.elim) a l u v (z :: R) hu hv
    (by omega) trivial (tok_neg (by rw [hz]; decide) _)
  have : ∀ {ts l : List Ident}, All2 Eq ts l → ts = l := fun h => by
    induction h with
    | nil => rfl
    | cons h _ ih => rw [h, ih]
  rw [this ht] at ft
  simp only [List.append_assoc, List.cons_append, List.nil_append]
  exact First.bindH (First.tok hx _) (First.bindH ft (First.bindH (First.tok hz _) (First.ret _ _)))

/-! ## Variables -/

/-- `[ a : b ]` behind the keyword of a type -/
theorem vdim_first {a b : SExp} {w : List STok} (h : rangeToks a b w) {M : Nat} (hM : w.length < M) (R : List STok) :
    ∃ t, MR A t (A.bin ":" (a.eval A) (b.eval A)) (a.Ok ∧ b.Ok) ∧ First None' (variableDimension (env B M)) (w ++ R) (.range t) R := by
  obtain ⟨_, _, rfl, ⟨o, rfl, ho⟩, u, _, rfl, hu, _, _, rfl, ⟨c, rfl, hc⟩, v, _, rfl, hv, ⟨e, rfl, he⟩⟩ := h
  simp only [List.length_append, List.length_cons, List.length_nil] at hM
  obtain ⟨t, ht, ft⟩ := (good_all (A := A) (B := B) (u ++ ([c] ++ v)).length).range (pk := .range) (w := u ++ ([c] ++ v)) ⟨u, _, rfl, hu, [c], v, rfl, ⟨c, rfl, hc⟩, hv⟩ (Nat.le_refl _) (M := M)
    (by simp only [List.length_append, List.length_cons, List.length_nil]; omega) (R := e :: R) ⟨e, R, rfl, by rw [he]; rfl⟩
  simp only [List.append_assoc, List.cons_append, List.nil_append] at ft ⊢
  refine ⟨t, ht, First.bindH (First.tok ho _) (First.head (D' := fun r => tok .RSQUARE_BR r = []) (a := some (.range t)) (r1 := e :: R) (First.some ?_)
    (First.bindH (First.tok he _) (First.ret _ _)) fun d s hs => bind_nil hs)⟩
  refine First.orN (bind_nil (tok_ne (exp_ne hu rfl _))) (First.orR ?_ (First.weak (First.map (f := VDim.range) ft)))
  intro z hz
  obtain ⟨t', r, h1, h2⟩ := mem_bind.1 hz
  rw [mem_pure] at h2; cases h2
  refine tok_ne fun y s e' e2 => ?_
  simp only at e'
  subst e'
  obtain ⟨-, h3⟩ := type_cut hu (.inr (.inl hc)) (.inl (by rw [e2]; rfl)) h1
  cases h3
  rw [hc] at e2; cases e2

theorem vec_first {k : SVec} {x : STok} (hx : x.ty = k.ty) (hx2 : x.text = k.text) (R : List STok) : First None' integerVectorType (x :: R) k.text R := by
  refine First.of_eq ?_
  rw [integerVectorType, texts, alts_apply]
  cases k <;> simp [tok_cons, hx, SVec.ty, ← hx2]

/-- A type of bits. -/
theorem vecType_first {k : SVec} {x y : STok} {s R : List STok} {l : List VDim} (hx : x.ty = k.ty) (hx2 : x.text = k.text) (hy : isIdTok y.ty = true ∨ y.ty = .LSQUARE_BR) {M : Nat}
    (hl : First None' (many (variableDimension (env B M))) (y :: s) l R) :
    First None' (env B (M + 1)).dataType (x :: y :: s) (.prim (.vec k.text .none) l) R := by
  have ne : ∀ {t' : ST}, k.ty ≠ t' → tok t' (x :: y :: s) = [] := fun h => tok_neg (by rw [hx]; exact h) _
  refine First.orN (bind_nil (ne (by cases k <;> decide))) (First.orN (bind_nil (ne (by cases k <;> decide))) (First.orN (bind_nil (ne (by cases k <;> decide)))
    (First.orN (bind_nil (ne (by cases k <;> decide))) (First.orL ?_))))
  refine First.bindH (a := DType.prim (.vec k.text .none)) (r1 := y :: s) ?_ (First.bindH hl (First.ret _ _))
  refine First.orL (First.map (f := DType.prim) ?_)
  refine First.orL (First.bindH (vec_first hx hx2 _) ?_)
  have hs : signing (y :: s) = [] := by
    rcases hy with hy | hy
    · exact (NoAt.toks (N := isIdTok) (by decide)).cons hy
    · exact toks_neg (by rw [hy]; simp) _
  exact First.bindH (a := Sign.none) (First.map (f := fun s : Option Sign => s.getD .none) (First.noneE hs)) (First.ret _ _)

theorem vec_kw (k : SVec) : isKw k.text = true := by cases k <;> decide +kernel

variable (A) in
/-- A tree of a variable means the same as the text. -/
structure MVr (t : VarDecl) (a : Ident × Option SExp) : Prop where
  name : t.name = a.1
  dims : t.dims = []
  ev : evVarInit A t.init = a.2.map (SExp.eval A)
  ok : (∀ e, a.2 = some e → e.Ok) → okVarInit t.init

theorem var_first {M : Nat} (a : Ident × Option SExp) (w R : List STok) (h : varToks a w) (hM : w.length < M) (hR : CommaSemi R) :
    ∃ t, MVr A t a ∧ First None' (variableDeclAssignment (env B M)) (w ++ R) t R := by
  obtain ⟨i, e⟩ := a
  cases e with
  | none =>
    obtain ⟨x, rfl, hx⟩ := h
    refine ⟨⟨i, [], .none⟩, ⟨rfl, rfl, rfl, fun _ => trivial⟩, First.bindH (identifier_first hx R) (First.bindH (a := none) (First.noneE ?_) (First.ret _ _))⟩
    obtain ⟨y, s, rfl, hy⟩ := hR
    have ne : ∀ {t : ST}, t ≠ .COMMA → t ≠ .SEMI → tok t (y :: s) = [] := fun h1 h2 => tok_neg (by rcases hy with hy | hy <;> rw [hy] <;> [exact h1.symm; exact h2.symm]) _
    show (tok .ASSIGN >>= fun _ => _) _ ++ (many1 (variableDimension (env B M)) >>= fun _ => _) _ = []
    have hm : many1 (variableDimension (env B M)) (y :: s) = [] := bind_nil (bind_nil (ne (by decide) (by decide)))
    rw [bind_nil (ne (by decide) (by decide)), bind_nil hm]; rfl
  | some e =>
    obtain ⟨_, _, rfl, ⟨x, rfl, hx⟩, _, u, rfl, ⟨y, rfl, hy⟩, hu⟩ := h
    simp only [List.length_append, List.length_cons, List.length_nil] at hM
    obtain ⟨t, ht, ft⟩ := exp_first (A := A) (B := B) hu (M := M) (by omega) hR.sep
    simp only [List.append_assoc, List.cons_append, List.nil_append]
    refine ⟨⟨i, [], .expr t⟩, ⟨rfl, rfl, by simp only [evVarInit, ht.ev, Option.map_some], fun h => ht.ok (h e rfl)⟩,
      First.bindH (identifier_first hx _) (First.bindH (a := some ([], .expr t)) (First.some (First.orL ?_)) (First.ret _ _))⟩
    exact First.bindH (First.tok hy _) (First.bindH (First.orL (First.map (f := VarInit.expr) ft)) (First.ret _ _))

theorem var_head {a : Ident × Option SExp} {w : List STok} (h : varToks a w) : ∃ x s, w = x :: s ∧ isIdTok x.ty = true := by
  obtain ⟨i, e⟩ := a
  cases e with
  | none => obtain ⟨x, rfl, hx⟩ := h; exact ⟨x, _, rfl, ident_id hx⟩
  | some e => obtain ⟨_, _, rfl, ⟨x, rfl, hx⟩, -⟩ := h; exact ⟨x, _, rfl, ident_id hx⟩

theorem vars_first {M : Nat} {k : SVec} {r : Option (SExp × SExp)} {a : Ident × Option SExp} {l : List (Ident × Option SExp)} {w : List STok} (h : (SItem.vars k r a l).Toks w)
    (hM : w.length < M) (R : List STok) : ∃ t ts, (evDType A t = vecEval A k r ∧ (rangeOk r → okDType t)) ∧ All2 (MVr A) ts (a :: l) ∧
    First None' (dataDeclaration C (env B M)) (w ++ R) (.vars false none (some (.type t)) ts) R := by
  rw [SItem.Toks] at h
  obtain ⟨_, _, rfl, ⟨x, rfl, hx, hx2⟩, p, _, rfl, hp, u, _, rfl, hu, v, _, rfl, hv, ⟨z, rfl, hz⟩⟩ := h
  simp only [List.length_append, List.length_cons, List.length_nil] at hM
  obtain ⟨M, rfl⟩ : ∃ m, M = m + 1 := ⟨M - 1, by omega⟩
  obtain ⟨ts, ht, ft⟩ := commas_first (D := None') (p := variableDeclAssignment (env B (M + 1))) (T := varToks) (M := MVr A) (N := M + 1) (Rst := CommaSemi)
    (fun a u R h hN hR => var_first a u R h hN hR) (fun z R hz => ⟨z, R, rfl, .inl hz⟩) (fun r h => h.elim) a l u v (z :: R) hu hv
    (by simp only [List.length_append]; omega) ⟨z, R, rfl, .inr hz⟩ (tok_neg (by rw [hz]; decide) _)
  obtain ⟨y, s, rfl, hy⟩ := var_head hu
  have ne : ∀ {t' : ST} (s : List STok), k.ty ≠ t' → tok t' (x :: s) = [] := fun s h => tok_neg (by rw [hx]; exact h) _
  have hsq : tok .LSQUARE_BR (y :: (s ++ (v ++ z :: R))) = [] := tok_neg (by intro e; rw [e] at hy; cases hy) _
  simp only [List.append_assoc, List.cons_append, List.nil_append] at ft ⊢
  have main : ∀ {t : DType}, First None' (env B (M + 1)).dataType (x :: (p ++ y :: (s ++ (v ++ z :: R)))) t (y :: (s ++ (v ++ z :: R))) →
      First None' (dataDeclaration C (env B (M + 1))) (x :: (p ++ y :: (s ++ (v ++ z :: R)))) (.vars false none (some (.type t)) ts) R := fun {t} ftt => by
    refine First.orL (First.bindH (a := false) ?_ (First.bindH (a := (none, some (.type t))) (r1 := y :: (s ++ (v ++ z :: R))) (First.orN (bind_nil (ne _ (by cases k <;> decide)))
      (First.bindH (a := none) (First.noneE ?_) (First.bindH (First.orL (First.map (f := DTypeOrImpl.type) ftt)) (First.ret _ _))))
      (First.bindH ft (First.bindH (First.tok hz _) (First.ret _ _)))))
    · exact First.map (f := Option.isSome) (First.noneE (ne _ (by cases k <;> decide)))
    · exact toks_neg (by rw [hx]; cases k <;> simp [SVec.ty]) _
  cases r with
  | none =>
    rw [optRange, Spec.SvLrm.Empty] at hp; subst hp
    refine ⟨.prim (.vec k.text .none) [], ts, ⟨?_, fun _ => ?_⟩, ht, main (vecType_first hx hx2 (.inl hy) (First.of_eq (many_none (bind_nil hsq))))⟩
    · simp only [evDType, evSign, vecEval]
    · simp only [okDType]; exact vec_kw k
  | some r =>
    rw [optRange] at hp
    obtain ⟨t, hr, fr⟩ := vdim_first (A := A) (B := B) hp (M := M) (by omega) (y :: (s ++ (v ++ z :: R)))
    obtain ⟨_, w', rfl, ⟨o, rfl, ho⟩, -⟩ := hp
    simp only [List.cons_append, List.nil_append, List.append_assoc] at fr main ⊢
    refine ⟨.prim (.vec k.text .none) [.range t], ts, ⟨?_, fun h => ?_⟩, ht, main (vecType_first hx hx2 (.inr ho) ?_)⟩
    · simp only [evDType, evVDims, hr.ev, evSign, vecEval]
    · simp only [okDType, okVDims]; exact ⟨vec_kw k, hr.ok h, trivial⟩
    · exact First.many (First.manyCons fr (First.of_eq (manyN_stop (bind_nil hsq) _)))

/-- The tree of a type of numbers. -/
def numPrim (k : SNum) : DPrim :=
  match k with
  | .shortreal | .real | .realtime => .nonInt k.text
  | _ => .atom k.text .none

def numType (k : SNum) : DType := .prim (numPrim k) []

theorem numType_ev (k : SNum) : evDType A (numType k) = A.kw k.text := by cases k <;> simp only [numType, numPrim, evDType, evVDims]
theorem numType_ok (k : SNum) : okDType (numType k) := by cases k <;> exact ⟨(by decide +kernel : isKw (SNum.text _) = true), trivial⟩

theorem numType_first {k : SNum} {x y : STok} {s : List STok} (hx : x.ty = k.ty) (hx2 : x.text = k.text) (hy : isIdTok y.ty = true) {M : Nat} :
    First None' (env B (M + 1)).dataType (x :: y :: s) (numType k) (y :: s) := by
  have ne : ∀ {t' : ST}, k.ty ≠ t' → tok t' (x :: y :: s) = [] := fun h => tok_neg (by rw [hx]; exact h) _
  have hsq : tok .LSQUARE_BR (y :: s) = [] := tok_neg (by intro e; rw [e] at hy; cases hy) _
  have hs : signing (y :: s) = [] := (NoAt.toks (N := isIdTok) (by decide)).cons hy
  have hp : First None' dataTypePrimitive (x :: y :: s) (numPrim k) (y :: s) := by
    refine First.of_eq ?_
    rw [dataTypePrimitive, alts_apply]
    cases k <;> simp [numPrim, integerVectorType, integerAtomType, nonIntegerType, texts, alts_apply, bind_apply, tok_cons, hx, SNum.ty, ← hx2, signingOpt, opt_none hs, pure_apply]
  refine First.orN (bind_nil (ne (by cases k <;> decide))) (First.orN (bind_nil (ne (by cases k <;> decide))) (First.orN (bind_nil (ne (by cases k <;> decide)))
    (First.orN (bind_nil (ne (by cases k <;> decide))) (First.orL ?_))))
  exact First.bindH (First.orL (First.map (f := DType.prim) hp)) (First.bindH (a := []) (First.of_eq (many_none (bind_nil hsq))) (First.ret _ _))

theorem atoms_first {M : Nat} {k : SNum} {a : Ident × Option SExp} {l : List (Ident × Option SExp)} {w : List STok} (h : (SItem.atoms k a l).Toks w)
    (hM : w.length < M) (R : List STok) : ∃ ts, All2 (MVr A) ts (a :: l) ∧
    First None' (dataDeclaration C (env B M)) (w ++ R) (.vars false none (some (.type (numType k))) ts) R := by
  rw [SItem.Toks] at h
  obtain ⟨_, _, rfl, ⟨x, rfl, hx, hx2⟩, u, _, rfl, hu, v, _, rfl, hv, ⟨z, rfl, hz⟩⟩ := h
  simp only [List.length_append, List.length_cons, List.length_nil] at hM
  obtain ⟨M, rfl⟩ : ∃ m, M = m + 1 := ⟨M - 1, by omega⟩
  obtain ⟨ts, ht, ft⟩ := commas_first (D := None') (p := variableDeclAssignment (env B (M + 1))) (T := varToks) (M := MVr A) (N := M + 1) (Rst := CommaSemi)
    (fun a u R h hN hR => var_first a u R h hN hR) (fun z R hz => ⟨z, R, rfl, .inl hz⟩) (fun r h => h.elim) a l u v (z :: R) hu hv
    (by simp only [List.length_append]; omega) ⟨z, R, rfl, .inr hz⟩ (tok_neg (by rw [hz]; decide) _)
  obtain ⟨y, s, rfl, hy⟩ := var_head hu
  have ne : ∀ {t' : ST} (s : List STok), k.ty ≠ t' → tok t' (x :: s) = [] := fun s h => tok_neg (by rw [hx]; exact h) _
  simp only [List.append_assoc, List.cons_append, List.nil_append] at ft ⊢
  refine ⟨ts, ht, First.orL (First.bindH (a := false) ?_ (First.bindH (a := (none, some (.type (numType k)))) (r1 := y :: (s ++ (v ++ z :: R))) (First.orN (bind_nil (ne _ (by cases k <;> decide)))
    (First.bindH (a := none) (First.noneE ?_) (First.bindH (First.orL (First.map (f := DTypeOrImpl.type) (numType_first hx hx2 hy))) (First.ret _ _))))
    (First.bindH ft (First.bindH (First.tok hz _) (First.ret _ _)))))⟩
  · exact First.map (f := Option.isSome) (First.noneE (ne _ (by cases k <;> decide)))
  · exact toks_neg (by rw [hx]; cases k <;> simp [SNum.ty]) _

/-- `[ a : b ]` as a packed dimension -/
theorem packed_first {a b : SExp} {w : List STok} (h : rangeToks a b w) {M : Nat} (hM : w.length < M) (R : List STok) :
    ∃ t, MR A t (A.bin ":" (a.eval A) (b.eval A)) (a.Ok ∧ b.Ok) ∧ First None' (packedDimension (env B M)) (w ++ R) (some t) R := by
  obtain ⟨_, _, rfl, ⟨o, rfl, ho⟩, u, _, rfl, hu, _, _, rfl, ⟨c, rfl, hc⟩, v, _, rfl, hv, ⟨e, rfl, he⟩⟩ := h
  simp only [List.length_append, List.length_cons, List.length_nil] at hM
  obtain ⟨ta, ha, fa⟩ := exp_first (A := A) (B := B) hu (M := M) (by omega) (R := c :: (v ++ e :: R)) (.of hc _ rfl rfl)
  obtain ⟨tb, hb, fb⟩ := exp_first (A := A) (B := B) hv (M := M) (by omega) (R := e :: R) (.of he _ rfl rfl)
  simp only [List.append_assoc, List.cons_append, List.nil_append]
  refine ⟨.range ta tb, ⟨?_, ?_⟩, First.bindH (First.tok ho _) (First.bindH (a := some (.range ta tb)) (r1 := e :: R) (First.some (First.bindH fa
    (First.bindH (a := some tb) (First.some (First.bindH (First.tok hc _) fb)) (First.ret _ _)))) (First.bindH (First.tok he _) (First.ret _ _)))⟩
  · rw [evARange, ha.ev, hb.ev]
  · intro h; exact ⟨ha.ok h.1, hb.ok h.2⟩

/-! ## Nets -/

/-- The tokens with which no kind of a net begins. -/
def netNo : ST → Bool
  | .KW_SUPPLY0 | .KW_SUPPLY1 | .KW_TRI | .KW_TRIAND | .KW_TRIOR | .KW_TRIREG | .KW_TRI0 | .KW_TRI1 | .KW_UWIRE | .KW_WIRE | .KW_WAND | .KW_WOR => false
  | _ => true
theorem netNo_id {t : ST} (h : isIdTok t = true) : netNo t = true := by revert h; cases t <;> decide
theorem netType_no {x : STok} (h : netNo x.ty = true) {R : List STok} : netType (x :: R) = [] := (NoAt.texts (N := netNo) (by decide)).cons h

theorem netType_first {k : SNet} {x : STok} (hx : x.ty = k.ty) (hx2 : x.text = k.text) (R : List STok) : First None' netType (x :: R) k.text R := by
  refine First.of_eq ?_
  rw [netType, texts, alts_apply]
  cases k <;> simp [tok_cons, hx, SNet.ty, ← hx2]

theorem net_kw (k : SNet) : isKw k.text = true := by cases k <;> decide +kernel

/-- No type in front of a name. -/
theorem noType_first {i : Ident} {x : STok} {R : List STok} (hx : Ident.Tok i x) (hR : Bd R) (hd : ∀ y s, R = y :: s → y.ty ≠ .DOUBLE_COLON) (M : Nat) :
    First Bd (opt (dataTypeOrImplicit (env B M))) (x :: R) none (x :: R) := by
  refine First.none ?_
  intro z hz
  rcases mem_or.1 hz with h1 | h1
  · obtain ⟨t, r, h3, h4⟩ := mem_bind.1 h1
    rw [mem_pure] at h4; cases h4
    exact dataType_bd M ⟨i, x, R, rfl, hx, [], [], R, rfl, rfl, hR, hd⟩ _ h3
  · exact (nil_mem h1 (bind_nil ((implicit_no _ (N := isIdTok) rfl rfl rfl).cons (ident_id hx)))).elim

/-- The type behind the kind of a net. -/
theorem netRange_first {r : Option (SExp × SExp)} {p : List STok} (h : optRange r p) {M : Nat} (hM : p.length < M) {i : Ident} {x : STok} {R : List STok} (hx : Ident.Tok i x) (hR : Bd R)
    (hd : ∀ y s, R = y :: s → y.ty ≠ .DOUBLE_COLON) (k : SNet) :
    ∃ o, (evTypeI A Bs k.text o = netEval A Bs k r ∧ (rangeOk r → (r = none → k = .wire) → okTypeI k.text o true)) ∧
      First Bd (opt (dataTypeOrImplicit (env B M))) (p ++ x :: R) o (x :: R) := by
  cases r with
  | none =>
    rw [optRange, Spec.SvLrm.Empty] at h; subst h
    refine ⟨none, ⟨?_, fun _ h => ⟨by rw [h rfl]; rfl, rfl⟩⟩, noType_first hx hR hd M⟩
    cases k <;> rfl
  | some r =>
    rw [optRange] at h
    obtain ⟨t, ht, ft⟩ := packed_first (A := A) (B := B) h (M := M) hM (x :: R)
    obtain ⟨_, w', rfl, ⟨o, rfl, ho⟩, -⟩ := h
    simp only [List.cons_append, List.nil_append] at ft ⊢
    refine ⟨some (.impl ⟨.none, [some t]⟩), ⟨?_, fun h _ => ?_⟩, First.some ?_⟩
    · simp only [evTypeI, evImpl, evPacked, ht.ev, evSign, netEval]
    · exact ⟨net_kw k, ht.ok h, by simp, .inr rfl⟩
    · refine First.orN (bind_nil ((dataType_eNo B M).cons (by rw [ho]; rfl))) (First.map (f := DTypeOrImpl.impl) ?_)
      refine First.orN (bind_nil (toks_neg (by rw [ho]; simp) _)) (First.weak (First.map (f := fun l => (⟨.none, l⟩ : ImplType)) ?_))
      exact First.bindH ft (First.bindH (First.of_eq (many_none (bind_nil (tok_neg (ident_notPath hx rfl) R)))) (First.ret _ _))

variable (A) in
/-- A tree of a net means the same as the text. -/
structure MNt (t : NetAssign) (a : Ident × Option SExp) : Prop where
  name : t.name = a.1
  dims : t.dims = []
  ev : t.value.map (evExp A) = a.2.map (SExp.eval A)
  ok : (∀ e, a.2 = some e → e.Ok) → okOptExp t.value

theorem net_first {M : Nat} (a : Ident × Option SExp) (w R : List STok) (h : varToks a w) (hM : w.length < M) (hR : CommaSemi R) :
    ∃ t, MNt A t a ∧ First None' (netAssignment (env B M)) (w ++ R) t R := by
  obtain ⟨i, e⟩ := a
  cases e with
  | none =>
    obtain ⟨x, rfl, hx⟩ := h
    obtain ⟨y, s, rfl, hy⟩ := hR
    have ne : ∀ {t : ST}, t ≠ .COMMA → t ≠ .SEMI → tok t (y :: s) = [] := fun h1 h2 => tok_neg (by rcases hy with hy | hy <;> rw [hy] <;> [exact h1.symm; exact h2.symm]) _
    exact ⟨⟨i, [], none⟩, ⟨rfl, rfl, rfl, fun _ => trivial⟩, First.bindH (identifier_first hx _) (First.bindH (a := []) (First.of_eq (many_none (bind_nil (ne (by decide) (by decide)))))
      (First.bindH (a := none) (First.noneE (bind_nil (ne (by decide) (by decide)))) (First.ret _ _)))⟩
  | some e =>
    obtain ⟨_, _, rfl, ⟨x, rfl, hx⟩, _, u, rfl, ⟨y, rfl, hy⟩, hu⟩ := h
    simp only [List.length_append, List.length_cons, List.length_nil] at hM
    obtain ⟨t, ht, ft⟩ := exp_first (A := A) (B := B) hu (M := M) (by omega) hR.sep
    simp only [List.append_assoc, List.cons_append, List.nil_append]
    exact ⟨⟨i, [], some t⟩, ⟨rfl, rfl, by simp only [ht.ev, Option.map_some], fun h => ht.ok (h e rfl)⟩,
      First.bindH (identifier_first hx _) (First.bindH (a := []) (First.of_eq (many_none (bind_nil (tok_neg (by rw [hy]; decide) _))))
        (First.bindH (a := some t) (First.some (First.bindH (First.tok hy _) ft)) (First.ret _ _)))⟩

/-- What follows the name of a net. -/
theorem var_bd {a : Ident × Option SExp} {u R : List STok} (h : varToks a u) (hR : CommaSemi R) : ∃ x s, u = x :: s ∧ Ident.Tok a.1 x ∧ Bd (s ++ R) ∧ ∀ y v, s ++ R = y :: v → y.ty ≠ .DOUBLE_COLON := by
  obtain ⟨i, e⟩ := a
  cases e with
  | none =>
    obtain ⟨x, rfl, hx⟩ := h
    refine ⟨x, [], rfl, hx, .stop ?_, ?_⟩ <;> obtain ⟨y, s, rfl, h | h⟩ := hR <;> rintro _ _ ⟨⟩ <;> rw [h] <;> decide
  | some e =>
    obtain ⟨_, _, rfl, ⟨x, rfl, hx⟩, _, u, rfl, ⟨y, rfl, hy⟩, hu⟩ := h
    refine ⟨x, _, rfl, hx, .stop ?_, ?_⟩ <;> rintro _ _ ⟨⟩ <;> rw [hy] <;> decide

theorem nets_first {M : Nat} {k : SNet} {r : Option (SExp × SExp)} {a : Ident × Option SExp} {l : List (Ident × Option SExp)} {w : List STok} (h : (SItem.nets k r a l).Toks w)
    (hM : w.length < M) (R : List STok) : ∃ o ts, (evTypeI A Bs k.text o = netEval A Bs k r ∧ (rangeOk r → (r = none → k = .wire) → okTypeI k.text o true)) ∧ All2 (MNt A) ts (a :: l) ∧
    First None' (netDeclaration G (env B M)) (w ++ R) (.net k.text false o ts) R := by
  rw [SItem.Toks] at h
  obtain ⟨_, _, rfl, ⟨x, rfl, hx, hx2⟩, p, _, rfl, hp, u, _, rfl, hu, v, _, rfl, hv, ⟨z, rfl, hz⟩⟩ := h
  simp only [List.length_append, List.length_cons, List.length_nil] at hM
  obtain ⟨ts, ht, ft⟩ := commas_first (D := None') (p := netAssignment (env B M)) (T := varToks) (M := MNt A) (N := M) (Rst := CommaSemi)
    (fun a u R h hN hR => net_first a u R h hN hR) (fun z R hz => ⟨z, R, rfl, .inl hz⟩) (fun r h => h.elim) a l u v (z :: R) hu hv
    (by simp only [List.length_append]; omega) ⟨z, R, rfl, .inr hz⟩ (tok_neg (by rw [hz]; decide) _)
  have hv0 : CommaSemi (v ++ z :: R) := by
    cases l with
    | nil => rw [restToks, Spec.SvLrm.Empty] at hv; subst hv; exact ⟨z, R, rfl, .inr hz⟩
    | cons b l => rw [restToks] at hv; obtain ⟨_, _, rfl, ⟨c, rfl, hc⟩, -⟩ := hv; exact ⟨c, _, rfl, .inl hc⟩
  obtain ⟨y, s, rfl, hy, hb, hd⟩ := var_bd hu hv0
  obtain ⟨o, ho, fo⟩ := netRange_first (A := A) (Bs := Bs) (B := B) hp (M := M) (by omega) hy hb hd k
  have ne : ∀ {t' : ST} (s : List STok), k.ty ≠ t' → tok t' (x :: s) = [] := fun s h => tok_neg (by rw [hx]; exact h) _
  simp only [List.append_assoc, List.cons_append, List.nil_append] at ft fo ⊢
  have hq : ∃ q r', p ++ y :: (s ++ (v ++ z :: R)) = q :: r' ∧ (q.ty = .LSQUARE_BR ∨ isIdTok q.ty = true) := by
    cases r with
    | none => rw [optRange, Spec.SvLrm.Empty] at hp; subst hp; exact ⟨y, _, rfl, .inr (ident_id hy)⟩
    | some r => obtain ⟨_, _, rfl, ⟨q, rfl, hq⟩, -⟩ := hp; exact ⟨q, _, rfl, .inl hq⟩
  refine ⟨o, ts, ho, ht, First.bindH (a := .net k.text false o ts) (r1 := z :: R) (First.orN (bind_nil (ne _ (by cases k <;> decide))) (First.orL ?_)) (First.bindH (First.tok hz _) (First.ret _ _))⟩
  refine First.bindH (netType_first hx hx2 _) (First.bindH (a := none) (First.noneE ?_) (First.bindH (a := none) (First.noneE ?_) ?_))
  · obtain ⟨q, r', e, hq⟩ := hq
    rw [e]
    show G.driveStrength _ ++ G.chargeStrength _ = []
    rw [G.drive_no.2 q r' (by rcases hq with h | h <;> [simp [h]; simp [id_mem h]]), G.charge_no.2 q r' (by rcases hq with h | h <;> [simp [h]; simp [id_mem h]])]; rfl
  · obtain ⟨q, r', e, hq⟩ := hq
    rw [e]
    exact (NoAt.texts (N := fun t => t == .LSQUARE_BR || isIdTok t) (by decide)).cons (by rcases hq with h | h <;> simp [h])
  · refine First.head (D' := Bd) fo (First.bindH (a := none) (First.noneE (bind_nil (tok_neg (ident_notPath hy rfl) _))) (First.bindH ft (First.ret _ _))) fun t s hs => ?_
    have h1 : delay3 (env B M) s = [] := bind_nil (tok_ne fun y r e => (hs.ne y r e).2)
    have h2 : P.sepBy .COMMA (netAssignment (env B M)) s = [] := bind_nil (bind_nil hs.id)
    rw [bind_apply, opt_none h1]
    simp only [List.flatMap_cons, List.flatMap_nil, List.append_nil]
    exact bind_nil h2

/-! ## Loops -/

variable (A) in
structure MGi (t : GenInit) (g : Bool) (i : Ident) (v : SExp) : Prop where
  genvar : t.genvar = g
  name : t.name = i
  value : ME A t.value v

theorem ginit_first {M : Nat} {g : Bool} {i : Ident} {e : SExp} {u v : List STok} {x y z : STok} (hg : genvarToks g u) (hx : Ident.Tok i x) (hy : y.ty = .ASSIGN) (hv : e.Toks v)
    (hz : z.ty = .SEMI) (hM : v.length < M) (R : List STok) : ∃ t, MGi A t g i e ∧ First None' (genvarInitialization (env B M)) (u ++ x :: y :: (v ++ z :: R)) t (z :: R) := by
  obtain ⟨t, ht, ft⟩ := exp_first (A := A) (B := B) hv hM (R := z :: R) (.of hz _ rfl rfl)
  have key : First None' (identifier >>= fun i => tok .ASSIGN >>= fun _ => (env B M).expression 0 >>= fun e => pure (⟨g, i, e⟩ : GenInit)) (x :: y :: (v ++ z :: R)) ⟨g, i, t⟩ (z :: R) :=
    First.bindH (identifier_first hx _) (First.bindH (First.tok hy _) (First.bindH ft (First.ret _ _)))
  refine ⟨⟨g, i, t⟩, ⟨rfl, rfl, ht⟩, ?_⟩
  cases g with
  | true =>
    obtain ⟨q, rfl, hq⟩ := hg
    exact First.bindH (a := true) (First.bindH (First.some (First.tok hq _)) (First.ret _ _)) key
  | false =>
    rw [genvarToks, Spec.SvLrm.Empty] at hg; subst hg
    have hid := ident_id hx
    exact First.bindH (a := false) (First.of_eq (flag_none (tok_neg (by intro e; rw [e] at hid; cases hid) _))) key

variable (A) in
structure MGs (t : GenIter) (s : SGenStep) : Prop where
  ev : evGenStep A t = s.eval A
  ok : s.Ok → okGenIter t

theorem gstep_first {M : Nat} {s : SGenStep} {w : List STok} (h : s.Toks w) (hM : w.length < M) {z : STok} (hz : z.ty = .RPAREN) (R : List STok) :
    ∃ t, MGs A t s ∧ First None' (genvarIteration (env B M)) (w ++ z :: R) t (z :: R) := by
  cases s with
  | assign i o e =>
    rw [SGenStep.Toks] at h
    obtain ⟨_, _, rfl, ⟨x, rfl, hx⟩, _, v, rfl, ⟨y, rfl, hy⟩, hv⟩ := h
    simp only [List.length_append, List.length_cons, List.length_nil] at hM
    obtain ⟨t, ht, ft⟩ := exp_first (A := A) (B := B) hv (M := M) (by omega) (R := z :: R) (.of hz _ rfl rfl)
    refine ⟨.assign i o t, ⟨?_, fun h => ⟨h.1, ht.ok h.2⟩⟩, ?_⟩
    · rw [evGenStep, SGenStep.eval, ht.ev]
    · simp only [List.append_assoc, List.cons_append, List.nil_append]
      exact First.orL (First.bindH (identifier_first hx _) (First.orL (First.bindH (assignOp_first hy _) (First.bindH ft (First.ret _ _)))))
  | incDec pre inc i =>
    cases pre with
    | true =>
      rw [SGenStep.Toks] at h
      obtain ⟨_, _, rfl, ⟨x, rfl, hx⟩, ⟨y, rfl, hy⟩⟩ := h
      refine ⟨.incDec true inc i, ⟨?_, fun h => h⟩, First.orN (bind_nil (identifier_no.cons ?_)) (First.bindH (incDec_first hx _) (First.bindH (identifier_first hy _) (First.ret _ _)))⟩
      · rw [evGenStep, SGenStep.eval]
      · rw [hx]; cases inc <;> rfl
    | false =>
      rw [SGenStep.Toks] at h
      obtain ⟨_, _, rfl, ⟨x, rfl, hx⟩, ⟨y, rfl, hy⟩⟩ := h
      refine ⟨.incDec false inc i, ⟨?_, fun h => h⟩, First.orL (First.bindH (identifier_first hx _) (First.orN (bind_nil ((assignOp_no (N := fun t => t == incDecTy inc) ?_).cons ?_))
        (First.bindH (incDec_first hy _) (First.ret _ _))))⟩
      · rw [evGenStep, SGenStep.eval]
      · intro o; cases o <;> cases inc <;> rfl
      · rw [hy]; simp

end Verif.Sv
