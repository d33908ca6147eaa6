import Verif.VhdlConcRead
/-!
# VHDL concurrent statements: blocks, instantiations, generate statements, and the induction over the depth of nesting
-/
set_option linter.unusedSectionVars false
namespace Verif.Vhdl
open P Verif.Spec Verif.Spec.Lrm

/-! ## Correspondence -/

structure MCn {V : Type} (A : Alg V) (t : Conc) (c : LConc) : Prop where
  ev : ∀ {S : Type} (B : SAlg V S), evConc A B t = c.eval A B
  ok : LConc.Ok c → okConc t

section
variable {V : Type} {A : Alg V}

theorem concs_eq {ts : List Conc} {l : List LConc} (h : List.Forall₂ (MCn A) ts l) :
    (∀ {S : Type} (B : SAlg V S), evConcs A B ts = concsEval A B l) ∧ (concsOk l → okConcs ts) := by
  induction h with
  | nil => exact ⟨fun B => by simp only [evConcs, concsEval], fun _ => trivial⟩
  | cons h _ ih =>
    refine ⟨fun B => by simp only [evConcs, concsEval, h.ev, ih.1], fun hk => ?_⟩
    simp only [concsOk] at hk
    exact ⟨h.ok hk.1, ih.2 hk.2⟩

structure MB (A : Alg V) (t : GenBody) (b : LBody) : Prop where
  ev : ∀ {S : Type} (B : SAlg V S), evGenBody A B t = b.eval A B
  ok : LBody.Ok b → okGenBody t

structure MGc (A : Alg V) (t : GenCond) (x : LGen) : Prop where
  ev : ∀ {S : Type} (B : SAlg V S) (f : Option S), evGenCond A B t f = x.eval A B f
  ok : LGen.Ok x → okGenCond t

theorem gens_eq {ts : List GenCond} {l : List LGen} (h : List.Forall₂ (MGc A) ts l) :
    (∀ {S : Type} (B : SAlg V S) (f : Option S), evGenConds A B ts f = gensEval A B l f) ∧ (gensOk l → okGenConds ts) := by
  induction h with
  | nil => exact ⟨fun B f => by simp only [evGenConds, gensEval], fun _ => trivial⟩
  | cons h _ ih =>
    refine ⟨fun B f => by simp only [evGenConds, gensEval, h.ev, ih.1], fun hk => ?_⟩
    simp only [gensOk] at hk
    exact ⟨h.ok hk.1, ih.2 hk.2⟩

structure MGe (A : Alg V) (t : GenElse) (x : LGenElse) : Prop where
  ev : ∀ {S : Type} (B : SAlg V S), evGenElse A B t = x.eval A B
  ok : LGenElse.Ok x → okGenElse t

inductive MGa (A : Alg V) : GenAlt → LGenAlt → Prop
  | mk {l : Option Str} {c : List Choice} {x : LChoices} {t : GenBody} {b : LBody} (h : MCs A c x) (hb : MB A t b) : MGa A (.mk l c t) (.mk l x b)

theorem altLabel_eq {S : Type} (B : SAlg V S) (l : Option Str) (s : S) : evAltLabel B l s = altLabelled B l s := by cases l <;> rfl

theorem galts_eq {ts : List GenAlt} {l : List LGenAlt} (h : List.Forall₂ (MGa A) ts l) :
    (∀ {S : Type} (B : SAlg V S), List.Forall₂ (fun a b => MCs A a.1 b.1 ∧ a.2 = b.2) (evGenAlts A B ts) (genAltsEval A B l)) ∧
      (genAltsOk l → okGenAlts ts ∧ nOthers (genChoices ts) = 0) := by
  induction h with
  | nil => exact ⟨fun B => by simp only [evGenAlts, genAltsEval]; exact .nil, fun _ => ⟨trivial, rfl⟩⟩
  | cons h _ ih =>
    obtain ⟨h1, h2⟩ := h
    refine ⟨fun B => ?_, fun hk => ?_⟩
    · simp only [evGenAlts, genAltsEval, LGenAlt.eval]
      exact .cons ⟨h1, by rw [h2.ev, altLabel_eq]⟩ (ih.1 B)
    · simp only [genAltsOk, LGenAlt.Ok] at hk
      obtain ⟨⟨k1, k2, k3⟩, k4⟩ := hk
      have e := others_eq h1
      obtain ⟨k5, k6⟩ := ih.2 k4
      refine ⟨⟨k1, choices_ok h1 fun x hx => (k2 x hx).1, h2.ok k3, k5⟩, ?_⟩
      have e0 : List.filter LChoice.isOthers _ = [] := List.filter_eq_nil_iff.2 fun x hx => by rw [(k2 x hx).2]; simp
      simp only [nOthers] at k6
      simp only [genChoices, nOthers, List.filter_append, List.length_append, e, k6, e0, List.length_nil]

end

/-! ## Beginnings -/

/-- What begins a concurrent statement. -/
def concStart : List VT := [.BASIC_IDENTIFIER, .EXTENDED_IDENTIFIER, .STRING_LITERAL, .CHARACTER_LITERAL, .SHIFT_LEFT, .LPAREN, .kw .PROCESS,
  .kw .ASSERT, .kw .WITH]

theorem label_nx {l : Option Str} {u R : List VTok} (h : labelToks l u) {L : List VT} (hR : Nx L R) :
    Nx ([.BASIC_IDENTIFIER, .EXTENDED_IDENTIFIER] ++ L) (u ++ R) := by
  cases l with
  | none => cases h; exact hR.mono fun t ht => List.mem_append_right _ ht
  | some l =>
    obtain ⟨u1, u2, rfl, h1, -⟩ := h
    rw [List.append_assoc]
    exact (Ident.nx h1).mono fun t ht => List.mem_append_left _ ht

theorem nameStart_nx {t : VT} (h : nameStart t = true) : t ∈ concStart := by
  revert h; cases t <;> simp [nameStart, concStart]

theorem target_nx {x : LTarget} {w R : List VTok} (h : x.Toks w) : Nx concStart (w ++ R) := by
  obtain ⟨y, s, rfl, hy⟩ := LTarget.start h
  refine ⟨y.ty, rfl, ?_⟩
  rcases hy with hy | hy
  · exact nameStart_nx hy
  · rw [hy]; decide

theorem assign_nx {a : LAssign} {w R : List VTok} (h : a.Toks w) : Nx concStart (w ++ R) := by
  cases a with
  | waveSel | forceSel | varSel => obtain ⟨u, _, rfl, hu, -⟩ := h; exact Nx.cat hu (by decide)
  | _ => obtain ⟨wt, _, rfl, ht, -⟩ := h; rw [List.append_assoc]; exact target_nx ht

theorem LConc.nx {c : LConc} {w R : List VTok} (h : c.Toks w) : Nx concStart (w ++ R) := by
  have key : ∀ {l : Option Str} {u v : List VTok}, labelToks l u → Nx concStart (v ++ R) → Nx concStart ((u ++ v) ++ R) := fun hu hv =>
    (Nx.assoc (label_nx hu hv)).mono (by decide)
  have key' : ∀ {l : Str} {u v : List VTok}, labelToks (some l) u → Nx concStart ((u ++ v) ++ R) := fun hu => by
    obtain ⟨u1, u2, rfl, h1, -⟩ := hu
    rw [List.append_assoc, List.append_assoc]
    exact (Ident.nx h1).mono (by decide)
  cases c with
  | process | assert_ =>
    simp only [LConc.Toks] at h
    obtain ⟨u, _, rfl, hu, w0, _, rfl, h0, -⟩ := h
    exact key hu (Nx.cat h0 (by decide))
  | call l p args =>
    simp only [LConc.Toks] at h
    obtain ⟨u, _, rfl, hu, w0, _, rfl, ⟨-, h0⟩, -⟩ := h
    have hn' : (callName p args).Toks w0 := by cases args <;> exact h0
    refine key hu ?_
    rw [List.append_assoc]
    exact target_nx (x := .name (callName p args)) hn'
  | wave | waveCond | waveSel =>
    simp only [LConc.Toks] at h
    obtain ⟨u, _, rfl, hu, hv⟩ := h
    exact key hu (assign_nx hv)
  | _ =>
    simp only [LConc.Toks] at h
    obtain ⟨u, _, rfl, hu, -⟩ := h
    exact key' hu

theorem LConc.ne {c : LConc} {w : List VTok} (h : c.Toks w) : w ≠ [] := by
  rintro rfl
  obtain ⟨t, e, -⟩ := LConc.nx (R := []) h
  cases e

theorem concs_nx {l : List LConc} {w R : List VTok} (h : concsToks l w) {L : List VT} (hR : Nx L R) : Nx (concStart ++ L) (w ++ R) := by
  cases l with
  | nil => simp only [concsToks] at h; cases h; exact hR.mono fun t ht => List.mem_append_right _ ht
  | cons c l =>
    simp only [concsToks] at h
    obtain ⟨u, v, rfl, hu, -⟩ := h
    rw [List.append_assoc]
    exact (LConc.nx hu).mono fun t ht => List.mem_append_left _ ht

theorem noLab_nil {β : Type} {ts : List VTok} (h : NoLab ts) {f : Str → Str → P β} : (label >>= fun l => tok .COLON >>= f l) ts = [] := by
  apply List.eq_nil_iff_forall_not_mem.2
  intro x hx
  obtain ⟨a, r, h1, h2⟩ := mem_bind.1 hx
  obtain ⟨b, r', h3, -⟩ := mem_bind.1 h2
  have : ∃ y, ts = y :: r ∧ (y.ty = .BASIC_IDENTIFIER ∨ y.ty = .EXTENDED_IDENTIFIER) := by
    rcases mem_or.1 h1 with h1 | h1
    · obtain ⟨y, e, hy, -⟩ := mem_tok.1 h1
      exact ⟨y, e, .inl hy⟩
    · obtain ⟨y, e, hy, -⟩ := mem_tok.1 h1
      exact ⟨y, e, .inr hy⟩
  obtain ⟨y, e, hy⟩ := this
  have hn := h y r e hy
  rw [tok_next hn] at h3
  cases h3

/-- No label in front of a flat text. -/
theorem flat_noLab {w R : List VTok} (hw : Flat S2 w) {L : List VT} (hR : Nx L R) (h1 : VT.BASIC_IDENTIFIER ∉ L) (h2 : VT.EXTENDED_IDENTIFIER ∉ L)
    (h3 : VT.COLON ∉ L) : NoLab (w ++ R) := by
  have second : ∀ {w : List VTok}, Flat S2 w → next (w ++ R) ≠ some .COLON := by
    intro w hw e
    cases hw with
    | nil => exact hR.not h3 e
    | atom _ _ _ h4 _ => rw [List.cons_append, next_cons] at e; rw [Option.some.inj e] at h4; cases h4
    | attr h _ _ => rw [List.cons_append, next_cons, h] at e; cases e
    | qual h _ _ => rw [List.cons_append, next_cons, h] at e; cases e
    | grp h _ _ _ => rw [List.cons_append, next_cons] at e; rw [Option.some.inj e] at h; cases h
  intro y s e hy
  cases hw with
  | nil => exact (hR.noLab h1 h2) y s e hy
  | atom _ _ _ _ h =>
    rw [List.cons_append] at e
    rw [← (List.cons.inj e).2]; exact second h
  | attr h _ _ =>
    rw [List.cons_append] at e
    rw [← (List.cons.inj e).1, h] at hy; rcases hy with hy | hy <;> cases hy
  | qual h _ _ =>
    rw [List.cons_append] at e
    rw [← (List.cons.inj e).1, h] at hy; rcases hy with hy | hy <;> cases hy
  | grp h _ _ _ =>
    rw [List.cons_append] at e
    rw [(List.cons.inj e).1] at h; rcases hy with hy | hy <;> rw [hy] at h <;> cases h

theorem choices_noLab {c : LChoices} {w R : List VTok} (h : c.Toks w) (hR : Nx [.ARROW] R) : NoLab (w ++ R) := by
  obtain ⟨u, v, rfl, hu, hv⟩ := h
  have hn : Nx [.BAR, .ARROW] (v ++ R) := by
    cases hc : c.tail with
    | nil => rw [hc] at hv; simp only [choicesToks] at hv; subst hv; exact hR.mono (by decide)
    | cons b l =>
      rw [hc] at hv; simp only [choicesToks] at hv
      obtain ⟨v1, v2, rfl, h1, -⟩ := hv
      exact Nx.cat h1 (by decide)
  rw [List.append_assoc]
  cases hc : c.head with
  | expr s => rw [hc] at hu; simp only [LChoice.Toks] at hu; exact flat_noLab (LSimple.flat s u hu) hn (by decide) (by decide) (by decide)
  | range a d b =>
    rw [hc] at hu; simp only [LChoice.Toks] at hu
    obtain ⟨u1, _, rfl, h1, u2, u3, rfl, h2, -⟩ := hu
    rw [List.append_assoc]
    have : Nx [.kw .TO, .kw .DOWNTO] ((u2 ++ u3) ++ (v ++ R)) := Nx.cat h2 (by cases d <;> decide)
    exact flat_noLab (LSimple.flat a u1 h1) this (by decide) (by decide) (by decide)
  | others =>
    rw [hc] at hu; simp only [LChoice.Toks] at hu
    exact (Nx.one (L := [.kw .OTHERS]) hu (by decide)).noLab (by decide) (by decide)

theorem optLabel_rd {l : Option Str} {u R : List VTok} (h : labelToks l u) (hR : l = none → NoLab R) : Rd None' optLabel u R l := by
  cases l with
  | none => cases h; exact Rd.none (noLab_nil (hR rfl))
  | some l =>
    obtain ⟨u1, u2, rfl, h1, h2⟩ := h
    exact Rd.some (Rd.bindN (ident_rd h1) (Rd.last h2))

/-- `end generate … ;` -/
theorem endGen_rd {l : Option Str} {w R : List VTok} (h : endToks .GENERATE false l w) : Rd None' endGenerate w R l := by
  obtain ⟨w6, _, rfl, h6, w7, _, rfl, h7, _, _, rfl, hq, w8, w9, rfl, h8, h9⟩ := h
  cases hq
  rw [List.nil_append]
  exact Rd.tok h6 (Rd.tok h7 (Rd.bindN (label_rd h8 (L := [.SEMI]) (Nx.one h9 (by decide)) (by decide) (by decide)) (Rd.last h9)))

/-- A rule that reads nothing. -/
theorem eq_rd0 {α β : Type} {D : List VTok → Prop} {p : P β} {f : β → P α} {w R : List VTok} {a : α} {b : β} (h : p (w ++ R) = [(b, w ++ R)])
    (hf : Rd D (f b) w R a) : Rd D (p >>= f) w R a := by
  unfold Rd First at *
  have : (p >>= f) (w ++ R) = f b (w ++ R) := by rw [bind_apply, h]; simp
  rw [this]; exact hf

theorem header_no {G : Gr} {R : List VTok} (h1 : next R ≠ some (.kw .GENERIC)) (h2 : next R ≠ some (.kw .PORT)) : blockHeader G R = [(([], []), R)] := by
  have e1 : opt (do
    let g ← genericClause G.il
    let _ ← opt (genericMap G.E >>= fun _ => tok .SEMI)
    return g) R = [(none, R)] := opt_none (bind_nil (bind_nil (tok_next h1)))
  have e2 : opt (do
    let p ← portClause G.il
    let _ ← opt (portMap G.E >>= fun _ => tok .SEMI)
    return p) R = [(none, R)] := opt_none (bind_nil (bind_nil (tok_next h2)))
  rw [blockHeader, bind_apply, e1]
  simp only [List.flatMap_cons, List.flatMap_nil, List.append_nil]
  rw [bind_apply, e2]
  simp only [List.flatMap_cons, List.flatMap_nil, List.append_nil]
  rfl

/-! ## Statements -/

section
variable {V : Type} {A : Alg V} {k M d e : Nat} (hA : ∀ f l, A.call f l = A.index f l) (g : Good A k) (hM : 3 * k + 2 < M)
include hA g hM

theorem map_rd {K : Kw} {q : P (List Assoc)} (hq : q = tok (.kw K) >>= fun _ => tok (.kw .MAP) >>= fun _ => associationList (env M)) {l : List LArg}
    {w R : List VTok} (h : mapToks K l w) (hk : w.length ≤ k) (hR : next R ≠ some (.kw K)) :
    ∃ o, (evMap A o = argsEval A l ∧ (argsOk l → okMap o)) ∧ Rd None' (opt q) w R o := by
  cases l with
  | nil =>
    cases h
    exact ⟨none, ⟨by simp only [evMap, argsEval], fun _ l h => by cases h⟩, Rd.none (by rw [hq]; exact bind_nil (tok_next hR))⟩
  | cons a l =>
    obtain ⟨w0, _, rfl, h0, w1, _, rfl, h1, w2, _, rfl, h2, w3, _, rfl, h3, w4, w5, rfl, h4, h5⟩ := h
    simp only [List.length_append] at hk
    have hn : next (w5 ++ R) = some .RPAREN := by obtain ⟨y, rfl, hy⟩ := h5; rw [List.singleton_append, next_cons, hy]
    obtain ⟨t, ts, m1, m2, f⟩ := args_first hA g a l h3 h4 (by rw [List.length_append]; omega) hM hn
    have m := assocs_ev (.cons m1 m2)
    refine ⟨some (t :: ts), ⟨m.1, fun hok l h => by cases h; exact m.2 hok⟩, Rd.some ?_⟩
    rw [hq]
    have f' : Rd (De .COMMA .RPAREN) (sepBy .COMMA (associationElement (env M))) (w3 ++ w4) (w5 ++ R) (t :: ts) := by
      unfold Rd; rw [List.append_assoc]; exact f
    refine Rd.tok h0 (Rd.tok h1 (Rd.tok h2 ?_))
    rw [← List.append_assoc]
    exact Rd.head f' (Rd.last h5) fun _ s hs => bind_nil (tok_next hs.2)

theorem map_nx {K : Kw} {l : List LArg} {w R : List VTok} (h : mapToks K l w) {L : List VT} (hR : Nx L R) : Nx (.kw K :: L) (w ++ R) := by
  cases l with
  | nil => cases h; exact hR.mono fun t ht => List.mem_cons_of_mem _ ht
  | cons a l =>
    obtain ⟨w0, _, rfl, h0, -⟩ := h
    exact Nx.cat h0 (by simp)

structure MU (A : Alg V) (t : InstUnit) (u : LUnit) : Prop where
  ev : evInstKind t = (u.eval A).1 ∧ evInstUnit A t = (u.eval A).2
  ok : LUnit.Ok u → okUnit t

theorem unit_rd {u : LUnit} {w R : List VTok} (h : u.Toks w) (hk : w.length ≤ k) (hR : Nx [.kw .GENERIC, .kw .PORT, .SEMI] R) :
    ∃ t, MU A t u ∧ Rd None' (instantiatedUnit (env M)) w R t := by
  cases u with
  | component kw n =>
    obtain ⟨w0, w1, rfl, h0, -, h1⟩ := h
    simp only [List.length_append] at hk
    obtain ⟨t, m, f⟩ := name_rd g hM h1 (by omega) hR (by decide)
    refine ⟨.component kw t, ⟨⟨rfl, m.ev⟩, fun h => m.ok h⟩, Rd.orL (Rd.bindN (flag_rd h0 ?_) (Rd.map (g := InstUnit.component kw) f))⟩
    intro e
    obtain ⟨y, s, rfl, hy⟩ := LName.start h1
    rw [List.cons_append, next_cons] at e
    rw [Option.some.inj e] at hy; cases hy
  | entity n =>
    obtain ⟨w0, w1, rfl, h0, -, h1⟩ := h
    simp only [List.length_append] at hk
    obtain ⟨t, m, f⟩ := name_rd g hM h1 (by omega) hR (by decide)
    have hx : Nx [.kw .ENTITY] ((w0 ++ w1) ++ R) := Nx.cat h0 (by decide)
    refine ⟨.entity t none, ⟨⟨rfl, m.ev⟩, fun h => h.elim⟩, Rd.orN ((flag_skip (hx.not (by decide))).trans (bind_nil (name_nil hx (by decide)))) (Rd.orL (Rd.tok h0 ?_))⟩
    have := Rd.bindN (D := None') (v := []) (R := R) (f := fun n => opt (do
      let _ ← tok .LPAREN
      let i ← identifier
      let _ ← tok .RPAREN
      return i) >>= fun a => pure (InstUnit.entity n a)) f (Rd.map (g := InstUnit.entity t) (Rd.none (bind_nil (hR.tok (by decide)))))
    rw [List.append_nil] at this
    exact this
  | config n =>
    obtain ⟨w0, w1, rfl, h0, -, h1⟩ := h
    simp only [List.length_append] at hk
    obtain ⟨t, m, f⟩ := name_rd g hM h1 (by omega) hR (by decide)
    have hx : Nx [.kw .CONFIGURATION] ((w0 ++ w1) ++ R) := Nx.cat h0 (by decide)
    exact ⟨.config t, ⟨⟨rfl, m.ev⟩, fun h => h.elim⟩, Rd.orN ((flag_skip (hx.not (by decide))).trans (bind_nil (name_nil hx (by decide)))) (Rd.orN (bind_nil (hx.tok (by decide)))
      (Rd.tok h0 (Rd.map (g := InstUnit.config) f)))⟩

theorem inst_rd {l : Str} {u : LUnit} {ga pa : List LArg} {w R : List VTok} {G : Gr} {I : Items} {conc : P Conc} (hG : G.E = env M)
    (h : LConc.Toks (.inst l u ga pa) w) (hk : w.length ≤ k) : ∃ t, MCn A t (.inst l u ga pa) ∧ Rd None' (concRule G I conc) w R t := by
  simp only [LConc.Toks] at h
  obtain ⟨_, _, rfl, ⟨u1, u2, rfl, hu1, hu2⟩, w0, _, rfl, h0, w1, _, rfl, h1, w2, w3, rfl, h2, h3⟩ := h
  simp only [List.length_append] at hk
  have n3 : Nx [.SEMI] (w3 ++ R) := Nx.one h3 (by decide)
  have n2 : Nx [.kw .PORT, .SEMI] ((w2 ++ w3) ++ R) := Nx.assoc (map_nx hA g hM h2 n3)
  have n1 : Nx [.kw .GENERIC, .kw .PORT, .SEMI] ((w1 ++ (w2 ++ w3)) ++ R) := Nx.assoc (map_nx hA g hM h1 n2)
  obtain ⟨t0, m0, f0⟩ := unit_rd hA g hM h0 (by omega) n1
  obtain ⟨t1, m1, f1⟩ := map_rd hA g hM (q := genericMap (env M)) rfl h1 (by omega) (n2.not (by decide))
  obtain ⟨t2, m2, f2⟩ := map_rd hA g hM (q := portMap (env M)) rfl h2 (by omega) (n3.not (by decide))
  refine ⟨.inst l t0 t1 t2, ⟨fun B => ?_, fun h => ?_⟩, ?_⟩
  · simp only [evConc, LConc.eval, m0.ev.1, m0.ev.2, m1.1, m2.1]
  · simp only [LConc.Ok] at h
    exact ⟨m0.ok h.1, m1.2 h.2.1, m2.2 h.2.2⟩
  · rw [List.append_assoc]
    refine Rd.orL (Rd.bindN (ident_rd hu1) (Rd.tok hu2 (Rd.orN (st_block _ ?_) (Rd.orL ?_))))
    · intro t ht
      simp only [List.mem_singleton] at ht
      subst ht
      rw [List.append_assoc]
      cases u with
      | component kw n =>
        obtain ⟨v0, v1, rfl, g0, -, g1⟩ := h0
        rw [List.append_assoc]
        cases kw with
        | true => exact One.ne g0 (by decide)
        | false =>
          cases g0
          intro e
          obtain ⟨y, s, rfl, hy⟩ := LName.start g1
          have e : some y.ty = some (VT.kw .BLOCK) := e
          rw [Option.some.inj e] at hy; cases hy
      | entity | config =>
        obtain ⟨v0, v1, rfl, g0, -⟩ := h0
        rw [List.append_assoc]
        exact One.ne g0 (by decide)
    · rw [hG]
      exact Rd.bindN f0 (Rd.bindN f1 (Rd.bindN f2 (Rd.last h3)))

end

/-! ## Statements with statements inside -/

section
variable {V : Type} {A : Alg V} {k M d e n m : Nat} {conc : P Conc} (g : Good A k) (hM : 3 * k + 2 < M) (he : k ≤ e)
  (hno : ∀ R, Nx afterStms R → conc R = [])
  (hst : ∀ c u R, LConc.Toks c u → LConc.Reg c → u.length ≤ k → u.length ≤ n → u.length ≤ m → ∃ t, MCn A t c ∧ Rd None' conc u R t)
include g hM he hno hst

theorem concs_rd {l : List LConc} {w R : List VTok} (h : concsToks l w) (hr : concsReg l) (hk : w.length ≤ k) (hn : w.length ≤ n) (hm : w.length ≤ m)
    (hR : Nx afterStms R) : ∃ ts, List.Forall₂ (MCn A) ts l ∧ Rd None' (many conc) w R ts :=
  many_rd (T := fun c u => LConc.Toks c u ∧ LConc.Reg c) (LT := fun l w => concsToks l w ∧ concsReg l) (M := MCn A) (D := None') (C := Nx afterStms)
    (Q := fun _ => True) (k := w.length) (fun _ h => h.elim) hno (fun _ _ => trivial) (fun w h => by have h := h.1; simp only [concsToks] at h; exact h)
    (fun b l w h => by
      obtain ⟨h1, h2⟩ := h
      simp only [concsToks] at h1
      simp only [concsReg] at h2
      obtain ⟨u, v, e, hu, hv⟩ := h1
      exact ⟨u, v, e, ⟨hu, h2.1⟩, hv, h2.2⟩)
    (fun _ _ _ _ => trivial) (fun b u h => LConc.ne h.1)
    (fun b u R h hu _ => hst b u R h.1 h.2 (by omega) (by omega) (by omega)) l w ⟨h, hr⟩ (Nat.le_refl _) R hR

theorem plain_no {G : Gr} {α : Type} {f : List Decl → P α} {R : List VTok} (h : Nx (concStart ++ afterStms) R) :
    (many (blockItem G (items G n)) >>= fun d => tok (.kw .BEGIN) >>= fun _ => f d) R = [] := by
  have : blockItem G (items G n) R = [] := (st_itemAt n .block).no h (by decide)
  rw [bind_apply, many_nil this]
  simp only [List.flatMap_cons, List.flatMap_nil, List.append_nil]
  exact bind_nil (h.tok (by decide))

theorem body_rd {b : LBody} {w R : List VTok} (h : b.Toks w) (hr : LBody.Reg false b) (hk : w.length ≤ k) (hn : w.length ≤ n) (hm : w.length ≤ m)
    (hR : Nx afterStms R) : ∃ t, MB A t b ∧ Rd None' (generateBody (gx M d e) (items (gx M d e) n) conc) w R t := by
  cases b with
  | plain ss =>
    simp only [LBody.Toks] at h
    simp only [LBody.Reg] at hr
    obtain ⟨ts, m1, f⟩ := concs_rd g hM he hno hst h hr hk hn hm hR
    exact ⟨.mk [] false ts, ⟨fun B => by simp only [evGenBody, LBody.eval, evDecls, (concs_eq m1).1, List.nil_append],
      fun h => ⟨by simp only [okDecls], (concs_eq m1).2 (by simp only [LBody.Ok] at h; exact h)⟩⟩,
      Rd.orN (plain_no g hM he hno hst (concs_nx h hR)) (Rd.map (g := GenBody.mk [] false) f)⟩
  | full ds ss f =>
    simp only [LBody.Toks] at h
    simp only [LBody.Reg] at hr
    obtain ⟨w0, _, rfl, h0, w1, _, rfl, h1, w2, w3, rfl, h2, h3⟩ := h
    cases f with
    | some f => cases hr.2
    | none =>
      cases h3
      simp only [List.length_append, List.append_nil] at hk hn hm ⊢
      obtain ⟨ts, m1, f⟩ := concs_rd g hM he hno hst h2 hr.1 (by omega) (by omega) (by omega) hR
      obtain ⟨td, m0, f0⟩ := itemsAt_rd (d := d) g hM he h0 (R := (w1 ++ w2) ++ R) (n := n) (by omega) (by omega) (Nx.cat h1 (by decide))
      exact ⟨.mk td true ts, ⟨fun B => by simp only [evGenBody, LBody.eval, (decls_eq m0).1, (concs_eq m1).1],
        fun h => ⟨(decls_eq m0).2 (by simp only [LBody.Ok] at h; exact h.1), (concs_eq m1).2 (by simp only [LBody.Ok] at h; exact h.2)⟩⟩,
        Rd.orL (Rd.bindN f0 (Rd.tok h1 (Rd.map (g := GenBody.mk td true) f)))⟩

theorem bodyEnd_rd {b : LBody} {w R : List VTok} (h : b.Toks w) (hr : LBody.Reg true b) (hk : w.length ≤ k) (hn : w.length ≤ n) (hm : w.length ≤ m)
    (hR : Nx afterStms R) : ∃ t, MB A t b ∧ Rd None' (generateBodyEnd (gx M d e) (items (gx M d e) n) conc) w R t := by
  cases b with
  | plain ss =>
    simp only [LBody.Toks] at h
    simp only [LBody.Reg] at hr
    obtain ⟨ts, m1, f⟩ := concs_rd g hM he hno hst h hr hk hn hm hR
    exact ⟨.mk [] false ts, ⟨fun B => by simp only [evGenBody, LBody.eval, evDecls, (concs_eq m1).1, List.nil_append],
      fun h => ⟨by simp only [okDecls], (concs_eq m1).2 (by simp only [LBody.Ok] at h; exact h)⟩⟩,
      Rd.orN (plain_no g hM he hno hst (concs_nx h hR)) (Rd.map (g := GenBody.mk [] false) f)⟩
  | full ds ss f =>
    simp only [LBody.Toks] at h
    simp only [LBody.Reg] at hr
    obtain ⟨w0, _, rfl, h0, w1, _, rfl, h1, w2, w3, rfl, h2, h3⟩ := h
    cases f with
    | none => cases hr.2
    | some f =>
      obtain ⟨w4, _, rfl, h4, w5, w6, rfl, h5, h6⟩ := h3
      simp only [List.length_append] at hk hn hm
      obtain ⟨ts, m1, f2⟩ := concs_rd g hM he hno hst h2 hr.1 (R := (w4 ++ (w5 ++ w6)) ++ R) (by omega) (by omega) (by omega) (Nx.cat h4 (by decide))
      obtain ⟨td, m0, f0⟩ := itemsAt_rd (d := d) g hM he h0 (R := (w1 ++ (w2 ++ (w4 ++ (w5 ++ w6)))) ++ R) (n := n) (by omega) (by omega) (Nx.cat h1 (by decide))
      exact ⟨.mk td true ts, ⟨fun B => by simp only [evGenBody, LBody.eval, (decls_eq m0).1, (concs_eq m1).1],
        fun h => ⟨(decls_eq m0).2 (by simp only [LBody.Ok] at h; exact h.1), (concs_eq m1).2 (by simp only [LBody.Ok] at h; exact h.2)⟩⟩,
        Rd.orL (Rd.bindN f0 (Rd.tok h1 (Rd.bindN f2 (Rd.tok h4 (Rd.bindN
          (label_rd h5 (L := [.SEMI]) (Nx.one h6 (by decide)) (by decide) (by decide)) (Rd.last h6))))))⟩

theorem block_rd {l : Str} {is : Bool} {ds : List LDecl} {ss : List LConc} {el : Option Str} {w R : List VTok}
    (h : LConc.Toks (.block l is ds ss el) w) (hr : LConc.Reg (.block l is ds ss el)) (hk : w.length ≤ k) (hn : w.length ≤ n) (hm : w.length ≤ m + 1) :
    ∃ t, MCn A t (.block l is ds ss el) ∧ Rd None' (concRule (gx M d e) (items (gx M d e) n) conc) w R t := by
  simp only [LConc.Toks] at h
  simp only [LConc.Reg] at hr
  obtain ⟨_, _, rfl, ⟨u1, u2, rfl, hu1, hu2⟩, w0, _, rfl, h0, w1, _, rfl, h1, w2, _, rfl, h2, w3, _, rfl, h3, w4, _, rfl, h4, he'⟩ := h
  have n5 := end_nx he' (R := R)
  obtain ⟨w6, _, rfl, h6, w7, _, rfl, h7, _, _, rfl, hq, w8, w9, rfl, h8, h9⟩ := he'
  cases hq
  have l0 : w0.length = 1 := by obtain ⟨y, rfl, -⟩ := h0; rfl
  simp only [List.nil_append, List.length_append] at hk hn hm n5 ⊢
  have n3 : Nx [.kw .BEGIN] ((w3 ++ (w4 ++ (w6 ++ (w7 ++ (w8 ++ w9))))) ++ R) := Nx.cat h3 (by decide)
  have n2 := Nx.assoc (decls_nx h2 n3)
  have n1 : Nx (.kw .IS :: (itemStart ++ [.kw .BEGIN])) ((w1 ++ (w2 ++ (w3 ++ (w4 ++ (w6 ++ (w7 ++ (w8 ++ w9))))))) ++ R) := by
    cases is with
    | false => cases h1; exact n2.mono (by decide)
    | true => exact Nx.cat h1 (by decide)
  obtain ⟨td, m0, f0⟩ := itemsAt_rd (d := d) g hM he h2 (n := n) (by omega) (by omega) (n3.mono (by decide))
  obtain ⟨ts, m1, f1⟩ := concs_rd g hM he hno hst h4 hr (by omega) (by omega) (by omega) (n5.mono (by decide))
  obtain ⟨o, fi⟩ : ∃ o, Rd None' (opt (tok (.kw .IS))) w1 ((w2 ++ (w3 ++ (w4 ++ (w6 ++ (w7 ++ (w8 ++ w9)))))) ++ R) o := by
    cases is with
    | false => cases h1; exact ⟨none, Rd.none (n2.tok (by decide))⟩
    | true => obtain ⟨y, rfl, hy⟩ := h1; exact ⟨some y.text, Rd.some (First.tok hy _)⟩
  refine ⟨.block l none [] [] td ts, ⟨fun B => ?_, fun h => ?_⟩, ?_⟩
  · simp only [evConc, LConc.eval, (decls_eq m0).1, (concs_eq m1).1, List.flatMap_nil, Option.map_none]
  · simp only [LConc.Ok] at h
    exact ⟨rfl, rfl, rfl, (decls_eq m0).2 h.1, (concs_eq m1).2 h.2⟩
  · rw [List.append_assoc]
    refine Rd.orL (Rd.bindN (ident_rd hu1) (Rd.tok hu2 (Rd.orL (Rd.tok h0 (opt_rd0 (bind_nil (n1.tok (by decide))) (Rd.bindN fi
      (eq_rd0 (header_no (n2.not (by decide)) (n2.not (by decide))) (Rd.bindN f0 (Rd.tok h3 (Rd.bindN f1 (Rd.tok h6 (Rd.tok h7 ?_))))))))))))
    exact Rd.bindN (label_rd h8 (L := [.SEMI]) (Nx.one h9 (by decide)) (by decide) (by decide)) (Rd.last h9)

theorem forGen_rd {l i : Str} {x : LDiscr} {b : LBody} {el : Option Str} {w R : List VTok}
    (h : LConc.Toks (.forGen l i x b el) w) (hr : LConc.Reg (.forGen l i x b el)) (hk : w.length ≤ k) (hn : w.length ≤ n) (hm : w.length ≤ m + 1) :
    ∃ t, MCn A t (.forGen l i x b el) ∧ Rd None' (concRule (gx M d e) (items (gx M d e) n) conc) w R t := by
  simp only [LConc.Toks] at h
  simp only [LConc.Reg] at hr
  obtain ⟨_, _, rfl, ⟨u1, u2, rfl, hu1, hu2⟩, w0, _, rfl, h0, w1, _, rfl, h1, w2, _, rfl, h2, w3, _, rfl, h3, w4, _, rfl, h4, w5, w6, rfl, h5, h6⟩ := h
  have l0 : w0.length = 1 := by obtain ⟨y, rfl, -⟩ := h0; rfl
  simp only [List.length_append] at hk hn hm
  obtain ⟨t3, m3, f3⟩ := discrete_rdm g hM h3 (R := (w4 ++ (w5 ++ w6)) ++ R) (by omega) (Nx.closes (L := [.kw .GENERATE]) (Nx.cat h4 (by decide)) (by decide))
  obtain ⟨t5, m5, f5⟩ := body_rd (d := d) g hM he hno hst h5 (R := w6 ++ R) hr (by omega) (by omega) (by omega) ((end_nx h6).mono (by decide))
  have hx : Nx [.kw .FOR] ((w0 ++ (w1 ++ (w2 ++ (w3 ++ (w4 ++ (w5 ++ w6)))))) ++ R) := Nx.cat h0 (by decide)
  refine ⟨.forGen l i t3 t5 el, ⟨fun B => ?_, fun h => ?_⟩, ?_⟩
  · simp only [evConc, LConc.eval, m3.ev, m5.ev]
  · simp only [LConc.Ok] at h
    exact ⟨m3.ok h.1, m5.ok h.2.1, h.2.2⟩
  · rw [List.append_assoc]
    exact Rd.orL (Rd.bindN (ident_rd hu1) (Rd.tok hu2 (Rd.orN (st_block.no hx (by decide)) (Rd.orN (inst_no' hx (by decide) (by decide)) (Rd.orL
      (Rd.orL (Rd.tok h0 (Rd.bindN (ident_rd h1) (Rd.tok h2 (Rd.head f3 (Rd.tok h4 (Rd.bindN f5 (Rd.map (g := Conc.forGen l i t3 t5) (endGen_rd h6))))
        fun _ s hs => bind_nil (Dm.tok hs rfl)))))))))))

theorem gen_rd {K : Kw} {x : LGen} {w v R : List VTok} (hv : Word K v) (h : x.Toks w) (hr : LGen.Reg x) (hk : w.length ≤ k) (hn : w.length ≤ n)
    (hm : w.length ≤ m) (hR : Nx afterStms R) :
    ∃ t, MGc A t x ∧ Rd None' (generateCond (gx M d e) (items (gx M d e) n) conc K) (v ++ w) R t := by
  cases x with
  | mk l c b =>
    simp only [LGen.Toks] at h
    simp only [LGen.Reg] at hr
    obtain ⟨w0, _, rfl, h0, w1, _, rfl, h1, w2, w3, rfl, h2, h3⟩ := h
    simp only [List.length_append] at hk hn hm
    have n2 : Nx [.kw .GENERATE] ((w2 ++ w3) ++ R) := Nx.cat h2 (by decide)
    obtain ⟨t1, m1, f1⟩ := expr_rd g hM h1 (by omega) (n2.mono (by decide))
    obtain ⟨t3, m3, f3⟩ := body_rd (d := d) g hM he hno hst h3 (R := R) hr (by omega) (by omega) (by omega) hR
    refine ⟨.mk l t1 t3, ⟨fun B f => by simp only [evGenCond, LGen.eval, m1.ev, m3.ev, altLabel_eq], fun h => ?_⟩, ?_⟩
    · simp only [LGen.Ok] at h
      exact ⟨h.1, m1.ok h.2.1, m3.ok h.2.2⟩
    · refine Rd.tok hv (Rd.bindN (optLabel_rd h0 fun _ => ?_) (Rd.head f1 (Rd.tok h2 (Rd.map (g := GenCond.mk l t1) f3)) fun _ => Kill.tok rfl))
      rw [List.append_assoc]
      exact flat_noLab (LExpr.flat c w1 h1) n2 (by decide) (by decide) (by decide)

theorem ifGen_rd {l : Str} {c : LGen} {el : List LGen} {f : LGenElse} {en : Option Str} {w R : List VTok}
    (h : LConc.Toks (.ifGen l c el f en) w) (hr : LConc.Reg (.ifGen l c el f en)) (hk : w.length ≤ k) (hn : w.length ≤ n) (hm : w.length ≤ m + 1) :
    ∃ t, MCn A t (.ifGen l c el f en) ∧ Rd None' (concRule (gx M d e) (items (gx M d e) n) conc) w R t := by
  simp only [LConc.Toks] at h
  simp only [LConc.Reg] at hr
  obtain ⟨_, _, rfl, ⟨u1, u2, rfl, hu1, hu2⟩, w0, _, rfl, h0, w1, _, rfl, h1, w2, _, rfl, h2, w3, w4, rfl, h3, h4⟩ := h
  have l0 : w0.length = 1 := by obtain ⟨y, rfl, -⟩ := h0; rfl
  simp only [List.length_append] at hk hn hm
  have n4 : Nx [.kw .END] (w4 ++ R) := end_nx h4
  have n3 : Nx [.kw .ELSE, .kw .END] ((w3 ++ w4) ++ R) := by
    cases f with
    | none => simp only [LGenElse.Toks] at h3; cases h3; exact n4.mono (by decide)
    | some l b =>
      simp only [LGenElse.Toks] at h3
      obtain ⟨v0, _, rfl, hv0, -⟩ := h3
      rw [List.append_assoc]
      exact Nx.cat hv0 (by decide)
  have n2 : Nx [.kw .ELSIF, .kw .ELSE, .kw .END] ((w2 ++ (w3 ++ w4)) ++ R) := by
    cases el with
    | nil => simp only [gensToks] at h2; cases h2; exact n3.mono (by decide)
    | cons x el =>
      simp only [gensToks] at h2
      obtain ⟨_, _, rfl, ⟨v0, _, rfl, hv0, -⟩, -⟩ := h2
      rw [List.append_assoc, List.append_assoc]
      exact Nx.cat hv0 (by decide)
  obtain ⟨t1, m1, f1⟩ := gen_rd (d := d) g hM he hno hst h0 h1 hr.1 (by omega) (by omega) (by omega) (n2.mono (by decide))
  obtain ⟨t2, m2, f2⟩ := many_rd (p := generateCond (gx M d e) (items (gx M d e) n) conc .ELSIF)
    (T := fun x u => Cat (Word .ELSIF) x.Toks u ∧ LGen.Reg x) (LT := fun l u => gensToks l u ∧ gensReg l) (M := MGc A) (D := None') (C := Nx [.kw .ELSE, .kw .END])
    (Q := Nx [.kw .ELSIF, .kw .ELSE, .kw .END]) (k := w2.length) (fun _ h => h.elim) (fun R hR => bind_nil (hR.tok (by decide))) (fun R hR => hR.mono (by decide))
    (fun w h => by have h := h.1; simp only [gensToks] at h; exact h)
    (fun b l w h => by
      obtain ⟨h1, h2⟩ := h
      simp only [gensToks] at h1
      simp only [gensReg] at h2
      obtain ⟨u, v, e, hu, hv⟩ := h1
      exact ⟨u, v, e, ⟨hu, h2.1⟩, hv, h2.2⟩)
    (fun b u R h => by obtain ⟨⟨v0, _, rfl, hv0, -⟩, -⟩ := h; exact Nx.cat hv0 (by decide))
    (fun b u h => by obtain ⟨⟨v0, _, rfl, ⟨y, rfl, -⟩, -⟩, -⟩ := h; simp)
    (fun b u R h hku hR => by
      obtain ⟨⟨v0, v1, rfl, hv0, hv1⟩, h2⟩ := h
      simp only [List.length_append] at hku
      exact gen_rd (d := d) g hM he hno hst hv0 hv1 h2 (by omega) (by omega) (by omega) (hR.mono (by decide)))
    el w2 ⟨h2, hr.2.1⟩ (Nat.le_refl _) _ n3
  have : ∃ t3, MGe A t3 f ∧ Rd None' (P.or
    (do
      let _ ← tok (.kw .ELSE)
      let l ← optLabel
      let _ ← tok (.kw .GENERATE)
      let b ← generateBody (gx M d e) (items (gx M d e) n) conc
      return GenElse.some l b)
    (notNext (.kw .ELSE) >>= fun _ => pure GenElse.none)) w3 (w4 ++ R) t3 := by
    cases f with
    | none =>
      simp only [LGenElse.Toks] at h3
      cases h3
      refine ⟨.none, ⟨fun B => by simp only [evGenElse, LGenElse.eval], fun _ => trivial⟩, Rd.orN (bind_nil (n4.tok (by decide))) ?_⟩
      have : notNext (.kw .ELSE) (w4 ++ R) = [((), w4 ++ R)] := by
        obtain ⟨y, s, rfl, hy⟩ : ∃ y s, w4 = y :: s ∧ y.ty = .kw .END := by
          obtain ⟨v0, v1, rfl, ⟨y, rfl, hy⟩, -⟩ := h4
          exact ⟨y, v1, rfl, hy⟩
        simp [notNext, hy]
      exact eq_rd0 (w := []) this (Rd.ret _)
    | some l b =>
      simp only [LGenElse.Toks] at h3
      have hr3 := hr.2.2
      simp only [LGenElse.Reg] at hr3
      obtain ⟨v0, _, rfl, hv0, v1, _, rfl, hv1, v2, v3, rfl, hv2, hv3⟩ := h3
      simp only [List.length_append] at hk hn hm
      obtain ⟨t, m3, f3⟩ := body_rd (d := d) g hM he hno hst hv3 (R := w4 ++ R) hr3 (by omega) (by omega) (by omega) (n4.mono (by decide))
      refine ⟨.some l t, ⟨fun B => by simp only [evGenElse, LGenElse.eval, m3.ev, altLabel_eq], fun h => ?_⟩, Rd.orL (Rd.tok hv0
        (Rd.bindN (optLabel_rd hv1 fun _ => ?_) (Rd.tok hv2 (Rd.map (g := GenElse.some l) f3))))⟩
      · simp only [LGenElse.Ok] at h
        exact ⟨h.1, m3.ok h.2⟩
      · exact (Nx.cat (L := [.kw .GENERATE]) hv2 (by decide)).noLab (by decide) (by decide)
  obtain ⟨t3, m3, f3⟩ := this
  have hx : Nx [.kw .IF] ((w0 ++ (w1 ++ (w2 ++ (w3 ++ w4)))) ++ R) := Nx.cat h0 (by decide)
  refine ⟨.ifGen l t1 t2 t3 en, ⟨fun B => ?_, fun h => ?_⟩, ?_⟩
  · simp only [evConc, LConc.eval, m1.ev, (gens_eq m2).1, m3.ev]
  · simp only [LConc.Ok] at h
    exact ⟨m1.ok h.1, (gens_eq m2).2 h.2.1, m3.ok h.2.2.1, h.2.2.2⟩
  · rw [List.append_assoc]
    refine Rd.orL (Rd.bindN (ident_rd hu1) (Rd.tok hu2 (Rd.orN (st_block.no hx (by decide)) (Rd.orN (inst_no' hx (by decide) (by decide)) (Rd.orL
      (Rd.orN (st_for.no hx (by decide)) (Rd.orL ?_)))))))
    rw [← List.append_assoc w0]
    exact Rd.bindN f1 (Rd.bindN f2 (Rd.bindN f3 (Rd.map (g := Conc.ifGen l t1 t2 t3) (endGen_rd h4))))

theorem galt_rd {x : LGenAlt} {w R : List VTok} (h : x.Toks w) (hr : LGenAlt.Reg x) (hk : w.length ≤ k) (hn : w.length ≤ n) (hm : w.length ≤ m)
    (hR : Nx afterStms R) : ∃ t, MGa A t x ∧ Rd None' (generateAlternative (gx M d e) (items (gx M d e) n) conc) w R t := by
  cases x with
  | mk l c b =>
    simp only [LGenAlt.Toks] at h
    simp only [LGenAlt.Reg] at hr
    obtain ⟨v, _, rfl, hv, w0, _, rfl, h0, w1, _, rfl, h1, w2, w3, rfl, h2, h3⟩ := h
    simp only [List.length_append] at hk hn hm
    have n2 : Nx [.ARROW] ((w2 ++ w3) ++ R) := Nx.cat h2 (by decide)
    obtain ⟨t1, m1, f1⟩ := choices_rd g hM h1 (by omega) (n2.mono (by decide))
    obtain ⟨t3, m3, f3⟩ := bodyEnd_rd (d := d) g hM he hno hst h3 (R := R) hr (by omega) (by omega) (by omega) hR
    refine ⟨.mk l t1 t3, .mk m1 m3, ?_⟩
    refine Rd.tok hv (Rd.bindN (optLabel_rd h0 fun _ => ?_) (Rd.head f1 (Rd.tok h2 (Rd.map (g := GenAlt.mk l t1) f3)) fun _ s hs => bind_nil (dch_tok hs (by decide))))
    rw [List.append_assoc]
    exact choices_noLab h1 n2

theorem caseGen_rd {l : Str} {x : LExpr} {a : LGenAlt} {r : List LGenAlt} {en : Option Str} {w R : List VTok}
    (h : LConc.Toks (.caseGen l x a r en) w) (hr : LConc.Reg (.caseGen l x a r en)) (hk : w.length ≤ k) (hn : w.length ≤ n) (hm : w.length ≤ m + 1) :
    ∃ t, MCn A t (.caseGen l x a r en) ∧ Rd None' (concRule (gx M d e) (items (gx M d e) n) conc) w R t := by
  simp only [LConc.Toks] at h
  simp only [LConc.Reg] at hr
  obtain ⟨_, _, rfl, ⟨u1, u2, rfl, hu1, hu2⟩, w0, _, rfl, h0, w1, _, rfl, h1, w2, _, rfl, h2, w3, _, rfl, h3, w4, w5, rfl, h4, h5⟩ := h
  have l0 : w0.length = 1 := by obtain ⟨y, rfl, -⟩ := h0; rfl
  simp only [List.length_append] at hk hn hm
  have n5 : Nx [.kw .END] (w5 ++ R) := end_nx h5
  have n4 : Nx [.kw .WHEN, .kw .END] ((w4 ++ w5) ++ R) := by
    cases r with
    | nil => simp only [genAltsToks] at h4; cases h4; exact n5.mono (by decide)
    | cons b r =>
      cases b with
      | mk l c b =>
        simp only [genAltsToks, LGenAlt.Toks] at h4
        obtain ⟨_, _, rfl, ⟨u, v, rfl, hu, -⟩, -⟩ := h4
        rw [List.append_assoc, List.append_assoc u]
        exact Nx.cat hu (by decide)
  obtain ⟨t1, m1, f1⟩ := expr_rd g hM h1 (R := (w2 ++ (w3 ++ (w4 ++ w5))) ++ R) (by omega) (Nx.mono (L := [.kw .GENERATE]) (Nx.cat h2 (by decide)) (by decide))
  obtain ⟨t3, m3, f3⟩ := galt_rd (d := d) g hM he hno hst h3 hr.1 (by omega) (by omega) (by omega) (n4.mono (by decide))
  obtain ⟨t4, m4, f4⟩ := many_rd (p := generateAlternative (gx M d e) (items (gx M d e) n) conc)
    (T := fun x u => LGenAlt.Toks x u ∧ LGenAlt.Reg x) (LT := fun l u => genAltsToks l u ∧ genAltsReg l) (M := MGa A) (D := None') (C := Nx [.kw .END])
    (Q := Nx [.kw .WHEN, .kw .END]) (k := w4.length) (fun _ h => h.elim) (fun R hR => bind_nil (hR.tok (by decide))) (fun R hR => hR.mono (by decide))
    (fun w h => by have h := h.1; simp only [genAltsToks] at h; exact h)
    (fun b l w h => by
      obtain ⟨h1, h2⟩ := h
      simp only [genAltsToks] at h1
      simp only [genAltsReg] at h2
      obtain ⟨u, v, e, hu, hv⟩ := h1
      exact ⟨u, v, e, ⟨hu, h2.1⟩, hv, h2.2⟩)
    (fun b u R h => by
      cases b with
      | mk l c b => have h := h.1; simp only [LGenAlt.Toks] at h; obtain ⟨v0, _, rfl, hv0, -⟩ := h; exact Nx.cat hv0 (by decide))
    (fun b u h => by
      cases b with
      | mk l c b => have h := h.1; simp only [LGenAlt.Toks] at h; obtain ⟨v0, _, rfl, ⟨y, rfl, -⟩, -⟩ := h; simp)
    (fun b u R h hku hR => galt_rd (d := d) g hM he hno hst h.1 h.2 (by omega) (by omega) (by omega) (hR.mono (by decide)))
    r w4 ⟨h4, hr.2⟩ (Nat.le_refl _) _ n5
  have m34 := galts_eq (.cons m3 m4)
  have hx : Nx [.kw .CASE] ((w0 ++ (w1 ++ (w2 ++ (w3 ++ (w4 ++ w5))))) ++ R) := Nx.cat h0 (by decide)
  refine ⟨.caseGen l t1 (t3 :: t4) en, ⟨fun B => ?_, fun h => ?_⟩, ?_⟩
  · have e := alts_eq (m34.1 B)
    simp only [genAltsEval] at e
    simp only [evConc, LConc.eval, m1.ev, e.1, e.2]
  · simp only [LConc.Ok] at h
    obtain ⟨o1, o2⟩ := m34.2 (by simp only [genAltsOk]; exact h.2)
    exact ⟨m1.ok h.1, o1, o2⟩
  · rw [List.append_assoc]
    exact Rd.orL (Rd.bindN (ident_rd hu1) (Rd.tok hu2 (Rd.orN (st_block.no hx (by decide)) (Rd.orN (inst_no' hx (by decide) (by decide)) (Rd.orL
      (Rd.orN (st_for.no hx (by decide)) (Rd.orN (st_if.no hx (by decide)) (Rd.tok h0 (Rd.head f1 (Rd.tok h2 (Rd.bindN f3 (Rd.bindN f4
        (Rd.map (g := Conc.caseGen l t1 (t3 :: t4)) (endGen_rd h5))))) fun _ => Kill.tok rfl)))))))))

end

/-! ## All statements -/

theorem plain_rd {V : Type} {A : Alg V} {G : Gr} {I : Items} {conc : P Conc} {l : Option Str} {u v R : List VTok} {t : ConcKind} {c : Option Str → LConc}
    (hu : labelToks l u) (m : MCk A t c) (f : RdK G I v R t) : ∃ t, MCn A t (c l) ∧ Rd None' (concRule G I conc) (u ++ v) R t := by
  refine ⟨.plain l t, ⟨fun B => by simp only [evConc, m.ev], fun h => m.ok l h⟩, ?_⟩
  cases l with
  | none =>
    cases hu
    exact Rd.orN (noLab_nil f.noLab) (Rd.map (g := Conc.plain none) f.rd)
  | some l =>
    obtain ⟨u1, u2, rfl, h1, h2⟩ := hu
    rw [List.append_assoc]
    exact Rd.orL (Rd.bindN (ident_rd h1) (Rd.tok h2 (Rd.orN (f.block _ _) (Rd.orN (f.inst _) (Rd.orN (f.gen _ _)
      (Rd.map (g := Conc.plain (some l)) f.rd))))))

theorem conc_no {G : Gr} {I : Items} {conc : P Conc} {M : Nat} (hG : G.E = env M) {R : List VTok} (hR : Nx afterStms R) : concRule G I conc R = [] := by
  refine or_nil (noLab_nil (hR.noLab (by decide) (by decide))) (bind_nil ?_)
  refine or_nil (process_no (hR.not (by decide)) (hR.not (by decide))) (or_nil ?_ (or_nil (assertion_no (hR.not (by decide)) (hR.not (by decide))) ?_))
  · rw [hG]
    exact (flag_skip (hR.not (by decide))).trans (bind_nil (name_nil hR (by decide)))
  · rw [hG]
    exact (flag_skip (hR.not (by decide))).trans (or_nil (bind_nil (target_no hR (by decide))) (head_no (hR.not (by decide))))

theorem concStm_no {G : Gr} {I : Items} {M : Nat} (hG : G.E = env M) {R : List VTok} (hR : Nx afterStms R) : ∀ m, concStm G I m R = []
  | 0 => rfl
  | _ + 1 => conc_no hG hR

theorem concStm_rd {V : Type} {A : Alg V} {k M d e n : Nat} (hA : ∀ f l, A.call f l = A.index f l) (g : Good A k) (hM : 3 * k + 2 < M) (he : k ≤ e) :
    ∀ (m : Nat) (c : LConc) (w R : List VTok), LConc.Toks c w → LConc.Reg c → w.length ≤ k → w.length ≤ n → w.length ≤ m →
      ∃ t, MCn A t c ∧ Rd None' (concStm (gx M d e) (items (gx M d e) n) m) w R t
  | 0, c, w, R, h, _, _, _, hm => (LConc.ne h (List.length_eq_zero_iff.1 (Nat.le_zero.1 hm))).elim
  | m + 1, c, w, R, h, hr, hk, hn, hm => by
    have hno : ∀ R, Nx afterStms R → concStm (gx M d e) (items (gx M d e) n) m R = [] := fun R hR => concStm_no rfl hR m
    have hst := concStm_rd (d := d) (n := n) hA g hM he m
    change ∃ t, MCn A t c ∧ Rd None' (concRule (gx M d e) (items (gx M d e) n) (concStm (gx M d e) (items (gx M d e) n) m)) w R t
    cases c with
    | process l s is ds ss el =>
      simp only [LConc.Toks] at h
      obtain ⟨u, v, rfl, hu, hv⟩ := h
      rw [List.length_append] at hk hn
      obtain ⟨t, m1, f⟩ := process_good (R := R) (d := d) g hM he (n := n) hv (by omega) (by omega)
      exact plain_rd (c := fun l => LConc.process l s is ds ss el) hu m1 f
    | call l p args =>
      simp only [LConc.Reg] at hr
      subst hr
      simp only [LConc.Toks] at h
      obtain ⟨u, v, rfl, hu, hv⟩ := h
      cases hu
      rw [List.nil_append] at hk ⊢
      obtain ⟨t, m1, f1, f2⟩ := call_conc (R := R) (I := items (gx M d e) n) (d := d) (e := e) g hM hv hk
      exact ⟨.plain none t, ⟨fun B => by simp only [evConc, m1.ev], fun h => m1.ok _ h⟩, Rd.orN (noLab_nil f1) (Rd.map (g := Conc.plain none) f2)⟩
    | assert_ l c r s =>
      simp only [LConc.Toks] at h
      obtain ⟨u, v, rfl, hu, hv⟩ := h
      rw [List.length_append] at hk
      obtain ⟨t, m1, f⟩ := assert_conc (R := R) (I := items (gx M d e) n) (d := d) (e := e) g hM hv (by omega)
      exact plain_rd (c := fun l => LConc.assert_ l c r s) hu m1 f
    | wave l t dl wv =>
      simp only [LConc.Toks] at h
      obtain ⟨u, v, rfl, hu, hv⟩ := h
      rw [List.length_append] at hk
      obtain ⟨t', m1, f⟩ := wave_conc (R := R) (I := items (gx M d e) n) (d := d) (e := e) g hM hv (by omega)
      exact plain_rd (c := fun l => LConc.wave l t dl wv) hu m1 f
    | waveCond l t dl wv =>
      simp only [LConc.Toks] at h
      obtain ⟨u, v, rfl, hu, hv⟩ := h
      rw [List.length_append] at hk
      obtain ⟨t', m1, f⟩ := waveCond_conc (R := R) (I := items (gx M d e) n) (d := d) (e := e) g hM hv (by omega)
      exact plain_rd (c := fun l => LConc.waveCond l t dl wv) hu m1 f
    | waveSel l x q t dl wv =>
      simp only [LConc.Toks] at h
      obtain ⟨u, v, rfl, hu, hv⟩ := h
      rw [List.length_append] at hk
      obtain ⟨t', m1, f⟩ := waveSel_conc (R := R) (I := items (gx M d e) n) (d := d) (e := e) g hM hv (by omega)
      exact plain_rd (c := fun l => LConc.waveSel l x q t dl wv) hu m1 f
    | block l is ds ss el => exact block_rd g hM he hno hst h hr hk hn hm
    | inst l u ga pa => exact inst_rd hA g hM rfl h hk
    | forGen l i x b el => exact forGen_rd g hM he hno hst h hr hk hn hm
    | ifGen l c el f en => exact ifGen_rd g hM he hno hst h hr hk hn hm
    | caseGen l x a r en => exact caseGen_rd g hM he hno hst h hr hk hn hm

end Verif.Vhdl
