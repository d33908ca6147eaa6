import Verif.VhdlItemRead
/-!
# VHDL: the parser reads declarations as the LRM says (the kinds of declarations)
-/
set_option linter.unusedSectionVars false
namespace Verif.Vhdl
open P Verif.Spec Verif.Spec.Lrm

theorem ident_nil {R : List VTok} {L : List VT} (h : Nx L R) (h1 : VT.BASIC_IDENTIFIER ∉ L) (h2 : VT.EXTENDED_IDENTIFIER ∉ L) : identifier R = [] :=
  or_nil (h.tok h1) (h.tok h2)

theorem optIdent_rd {n : Option Str} {w R : List VTok} (h : Opt' Ident n w) (hR : Nx [.SEMI] R) : Rd None' (opt identifier) w R n := by
  cases n with
  | none => cases h; exact Rd.none (ident_nil hR (by decide) (by decide))
  | some s => exact Rd.some (ident_rd h)

theorem optIdent_nx {n : Option Str} {w R : List VTok} (h : Opt' Ident n w) (hR : Nx [.SEMI] R) :
    Nx [.BASIC_IDENTIFIER, .EXTENDED_IDENTIFIER, .SEMI] (w ++ R) := by
  cases n with
  | none => cases h; exact hR.mono (by decide)
  | some s => exact (Ident.nx h).mono (by decide)

/-- `end … name ;` -/
theorem endOpt_rd {α β : Type} {K : P α} {kt : List VTok → Prop} {b : Bool} {n : Option Str} {w R : List VTok} (h : endOpt kt b n w)
    (hk : ∀ u R, kt u → ∃ a, Rd None' K u R a) (hno : ∀ R, Nx [.BASIC_IDENTIFIER, .EXTENDED_IDENTIFIER, .SEMI] R → K R = []) (x : β) :
    Rd None' (tok (.kw .END) >>= fun _ => opt K >>= fun _ => opt identifier >>= fun _ => tok .SEMI >>= fun _ => pure x) w R x := by
  obtain ⟨w0, _, rfl, h0, w1, _, rfl, h1, w2, w3, rfl, h2, h3⟩ := h
  have e3 : Nx [.SEMI] (w3 ++ R) := Nx.one h3 (by decide)
  have f2 := optIdent_rd h2 e3
  have n2 := optIdent_nx h2 e3
  obtain ⟨a, f1⟩ : ∃ a, Rd None' (opt K) w1 ((w2 ++ w3) ++ R) a := by
    cases b with
    | false => cases h1; exact ⟨_, Rd.none (hno _ (Nx.assoc n2))⟩
    | true => obtain ⟨a, f⟩ := hk w1 _ h1; exact ⟨_, Rd.some f⟩
  exact Rd.tok h0 (Rd.bindN f1 (Rd.bindN f2 (Rd.last h3)))

theorem endOpt_nx {kt : List VTok → Prop} {b : Bool} {n : Option Str} {w R : List VTok} (h : endOpt kt b n w) : Nx afterDecls (w ++ R) := by
  obtain ⟨w0, _, rfl, h0, -⟩ := h; exact Nx.cat h0 (by decide)

theorem desig_pos {x : Designator} {w R : List VTok} (h : Designator.Tok x w) : designator (w ++ R) = [(x, R)] := by
  cases x with
  | ident s =>
    obtain ⟨y, rfl, h | h, rfl⟩ := h <;>
      simp [designator, identifier, or_apply, bind_apply, pure_apply, tok_cons, h]
  | opSymbol s =>
    obtain ⟨y, rfl, hy, rfl⟩ := h
    simp [designator, identifier, or_apply, bind_apply, pure_apply, tok_cons, hy]

/-- A specification is no instantiation, when no `new` follows behind its `is`. -/
theorem subInst_no {E : Env} {s : LSpec} {w w0 R : List VTok} (h : s.Toks w) (h0 : Word .IS w0) (hR : next R ≠ some (.kw .NEW)) :
    subprogramInstantiation E (w ++ (w0 ++ R)) = [] := by
  have key : ∀ {x : Designator} {k w1 t : List VTok} {K : Kw}, (K = .PROCEDURE ∨ K = .FUNCTION) → Word K k → Designator.Tok x w1 →
      ((tok (.kw .IS) >>= fun _ => tok (.kw .NEW)) t = []) → subprogramInstantiation E (k ++ (w1 ++ t)) = [] := by
    intro x k w1 t K hK hk hx ht
    obtain ⟨y, rfl, hy⟩ := hk
    have e1 : subprogramKind (y :: (w1 ++ t)) = [((), w1 ++ t)] := by
      rcases hK with rfl | rfl <;> simp [subprogramKind, toks, alts, or_apply, bind_apply, pure_apply, tok_cons, hy]
    rw [List.singleton_append, subprogramInstantiation, bind_apply, e1]
    simp only [List.flatMap_cons, List.flatMap_nil, List.append_nil]
    rw [bind_apply, desig_pos hx]
    simp only [List.flatMap_cons, List.flatMap_nil, List.append_nil]
    cases hi : tok (.kw .IS) t with
    | nil => exact bind_nil hi
    | cons z l =>
      rw [bind_apply, hi] at ht
      rw [bind_apply, hi]
      simp only [List.flatMap_cons, List.append_eq_nil_iff, List.flatMap_eq_nil_iff] at ht ⊢
      exact ⟨bind_nil ht.1, fun q hq => bind_nil (ht.2 q hq)⟩
  obtain ⟨z, rfl, hz⟩ := h0
  cases s with
  | proc x l =>
    obtain ⟨w1, _, rfl, h1, w2, w3, rfl, h2, h3⟩ := h
    rw [List.append_assoc, List.append_assoc]
    refine key (.inl rfl) h1 h2 ?_
    cases l with
    | nil =>
      cases h3
      rw [List.nil_append, List.singleton_append, bind_apply, tok_pos hz]
      simp only [List.flatMap_cons, List.flatMap_nil, List.append_nil]
      exact tok_next hR
    | cons i l =>
      obtain ⟨u, v, rfl, ⟨y, rfl, hy⟩, -⟩ := h3
      exact bind_nil (tok_neg (by rw [hy]; decide) _)
  | func p x l r =>
    obtain ⟨wp, _, rfl, hp, w1, _, rfl, h1, w2, _, rfl, h2, w3, _, rfl, h3, w4, w5, rfl, h4, h5⟩ := h
    cases p with
    | none =>
      cases hp
      rw [List.nil_append, List.append_assoc, List.append_assoc]
      refine key (.inr rfl) h1 h2 ?_
      cases l with
      | nil =>
        cases h3
        obtain ⟨y, rfl, hy⟩ := h4
        exact bind_nil (tok_neg (by rw [hy]; decide) _)
      | cons i l =>
        obtain ⟨u, v, rfl, ⟨y, rfl, hy⟩, -⟩ := h3
        exact bind_nil (tok_neg (by rw [hy]; decide) _)
    | some b =>
      have : Nx [.kw .PURE, .kw .IMPURE] ((wp ++ (w1 ++ (w2 ++ (w3 ++ (w4 ++ w5))))) ++ ([z] ++ R)) := by
        cases b <;> exact Nx.cat hp (by decide)
      exact st_subInst.no this (by decide)

section
variable {V : Type} {A : Alg V} {k M d e : Nat} (g : Good A k) (hM : 3 * k + 2 < M)
include g hM

/-- `a, b : t := x ;` -/
theorem vars_rd {α : Type} {v : LVars} {w R : List VTok} (h : Cat (v.Toks Nil) (One .SEMI) w) (hk : w.length ≤ k) (f : VarList → α) :
    ∃ t, MV A t v ∧ Rd None' (identifierList >>= fun ns => tok .COLON >>= fun _ => (env M).subInd >>= fun t => initValue (env M) >>= fun e =>
      tok .SEMI >>= fun _ => pure (f ⟨ns, t, e⟩)) w R (f t) := by
  obtain ⟨_, w4, rfl, ⟨w0, _, rfl, h0, w1, _, rfl, h1, _, _, rfl, rfl, w2, w3, rfl, h2, h3⟩, h4⟩ := h
  simp only [List.append_assoc, List.nil_append, List.length_append] at hk ⊢
  have e4 : Nx afterVars (w4 ++ R) := Nx.one h4 (by decide)
  obtain ⟨x, mx, fx⟩ := init_rd g hM h3 (R := w4 ++ R) (by omega) e4
  obtain ⟨t, mt, ft⟩ := sub_rd g hM h2 (R := (w3 ++ w4) ++ R) (by omega) (Nx.assoc ((init_nx h3 e4).mono fun _ h => h) |>.closes (by decide))
  refine ⟨⟨v.names, t, x⟩, MV.mk' mt mx, Rd.bindN (idents_rd h0 ?_) (Rd.tok h1 (Rd.head ft (Rd.head fx (Rd.last h4) ?_) ?_))⟩
  · rw [List.append_assoc]; exact (Nx.one h1 (L := [.COLON]) (by decide)).not (by decide)
  · exact fun _ s hs => bind_nil (hs.tok rfl)
  · exact fun _ => Dead.next init_stay fun _ => Dead.bind (Dead.tok rfl)

theorem signal_rd {v : LVars} {w R : List VTok} (h : Cat (Word .SIGNAL) (Cat (v.Toks Nil) (One .SEMI)) w) (hk : w.length ≤ k) :
    ∃ t, MDc A t (.signal v) ∧ Rd None' (signalDeclaration (env M)) w R t := by
  obtain ⟨w9, _, rfl, h9, _, w4, rfl, ⟨w0, _, rfl, h0, w1, _, rfl, h1, _, _, rfl, rfl, w2, w3, rfl, h2, h3⟩, h4⟩ := h
  simp only [List.append_assoc, List.nil_append, List.length_append] at hk ⊢
  have e4 : Nx afterVars (w4 ++ R) := Nx.one h4 (by decide)
  obtain ⟨x, mx, fx⟩ := init_rd g hM h3 (R := w4 ++ R) (by omega) e4
  have n3 : Nx [.SEMI, .RPAREN, .VARASGN] ((w3 ++ w4) ++ R) := Nx.assoc (init_nx h3 e4)
  obtain ⟨t, mt, ft⟩ := sub_rd g hM h2 (R := (w3 ++ w4) ++ R) (by omega) (n3.closes (by decide))
  have m : MV A ⟨v.names, t, x⟩ v := MV.mk' mt mx
  have f0 : Rd Dm (opt (P.or (tok (.kw .REGISTER)) (tok (.kw .BUS)))) [] ((w3 ++ w4) ++ R) Option.none :=
    Rd.none (or_nil (n3.tok (by decide)) (n3.tok (by decide)))
  have hs : Stay Dm (opt (P.or (tok (.kw .REGISTER)) (tok (.kw .BUS)))) := Stay.opt fun s hs => or_nil (hs.tok rfl) (hs.tok rfl)
  refine ⟨.signal ⟨v.names, t, x⟩ false, ⟨fun B => ?_, fun o => ?_⟩, Rd.tok h9 (Rd.bindN (idents_rd h0 ?_) (Rd.tok h1 (Rd.head ft
    (Rd.head (u := []) f0 (Rd.head fx (Rd.last h4) ?_) ?_) ?_)))⟩
  · simp only [evDecl, LDecl.eval, m.ev]
  · simp only [LDecl.Ok] at o; exact ⟨m.ok o, rfl⟩
  · rw [List.append_assoc]; exact (Nx.one h1 (L := [.COLON]) (by decide)).not (by decide)
  · exact fun _ s hs => bind_nil (hs.tok rfl)
  · exact fun _ => Dead.next init_stay fun _ => Dead.bind (Dead.tok rfl)
  · exact fun _ => Dead.next hs fun _ => Dead.next init_stay fun _ => Dead.bind (Dead.tok rfl)

theorem component_rd {p : Place} {n : Str} {is : Bool} {a b : List LIntf} {l : Option Str} {w R : List VTok} (h : LDecl.Toks p (.component n is a b l) w)
    (hk : w.length ≤ k) : ∃ t, MDc A t (.component n is a b l) ∧ Rd None' (componentDeclaration (gx M d e)) w R t := by
  simp only [LDecl.Toks] at h
  obtain ⟨-, w0, _, rfl, h0, w1, _, rfl, h1, w2, _, rfl, h2, w3, _, rfl, h3, w4, _, rfl, h4, w5, _, rfl, h5, w6, _, rfl, h6, w7, w8, rfl, h7, h8⟩ := h
  simp only [List.length_append] at hk
  have e8 : Nx [.SEMI] (w8 ++ R) := Nx.one h8 (by decide)
  have e5 : Nx [.kw .END] ((w5 ++ (w6 ++ (w7 ++ w8))) ++ R) := Nx.cat h5 (by decide)
  have e4 : Nx [.kw .PORT, .kw .END] ((w4 ++ (w5 ++ (w6 ++ (w7 ++ w8)))) ++ R) := by
    cases b with
    | nil => cases h4; exact e5.mono (by decide)
    | cons => obtain ⟨u, v, rfl, hu, -⟩ := h4; exact Nx.assoc (Nx.cat hu (by decide))
  have e3 : Nx [.kw .GENERIC, .kw .PORT, .kw .END] ((w3 ++ (w4 ++ (w5 ++ (w6 ++ (w7 ++ w8))))) ++ R) := by
    cases a with
    | nil => cases h3; exact e4.mono (by decide)
    | cons => obtain ⟨u, v, rfl, hu, -⟩ := h3; exact Nx.assoc (Nx.cat hu (by decide))
  obtain ⟨ta, ma, fa⟩ := clause_rd (d := d) g hM h3 (R := (w4 ++ (w5 ++ (w6 ++ (w7 ++ w8)))) ++ R) (by omega) (e4.not (by decide))
  obtain ⟨tb, mb, fb⟩ := clause_rd (d := d) g hM h4 (R := (w5 ++ (w6 ++ (w7 ++ w8))) ++ R) (by omega) (e5.not (by decide))
  have ea := intfs_eq ma .generic
  have eb := intfs_eq mb .port
  obtain ⟨i, fi⟩ : ∃ i, Rd None' (opt (tok (.kw .IS))) w2 ((w3 ++ (w4 ++ (w5 ++ (w6 ++ (w7 ++ w8))))) ++ R) i := by
    cases is with
    | false => cases h2; exact ⟨_, Rd.none (e3.tok (by decide))⟩
    | true => obtain ⟨y, rfl, hy⟩ := h2; exact ⟨_, Rd.some (First.tok hy _)⟩
  refine ⟨.component n (ta.getD []) (tb.getD []), ⟨fun B => ?_, fun o => ?_⟩, Rd.tok h0 (Rd.bindN (ident_rd h1) (Rd.bindN fi (Rd.bindN fa (Rd.bindN fb
    (Rd.tok h5 (Rd.tok h6 (Rd.bindN (optIdent_rd h7 e8) (Rd.last h8))))))))⟩
  · simp only [evDecl, LDecl.eval, ea.1, eb.1]
  · simp only [LDecl.Ok] at o; exact ⟨ea.2 o.1, eb.2 o.2⟩

/-- Skips the alternatives of a rule that begin with other tokens. -/
macro "skip" h:ident st:term : tactic => `(tactic| (refine Rd.orN (Starts.no $st $h ?_) ?_; (focus decide)))

/-- The declarations that can stand everywhere. -/
def LDecl.Common : LDecl → Prop
  | .signal _ | .subBody .. | .packageBody .. | .component .. => False
  | _ => True

omit g hM in
theorem common_eq {G : Gr} {I : Items} : commonItem G I = P.or (subprogramDeclaration G) (P.or (subprogramInstantiation G.E)
    (P.or (packageDeclaration G I.pkg >>= fun x => pure (.package x.1 x.2.1 x.2.2)) (P.or (packageInstantiation G.E >>= fun n => pure (.packageInst n))
    (P.or (typeDeclaration G.E (protectedItem G) I.proc) (P.or (subtypeDeclaration G.E) (P.or (constantDeclaration G.E) (P.or (variableDeclaration G.E)
    (P.or (fileDeclaration G.E) (P.or (aliasDeclaration G.E) (P.or (attributeDeclaration G.E) (P.or (attributeSpecification G.E)
    (P.or (useClause >>= fun l => pure (.use l)) (P.or groupTemplate (groupDeclaration G.E)))))))))))))) := rfl

variable {n : Nat} {I : Items} (hno : ∀ p, Starts itemStart (inner I p))
  (hin : ∀ p x u R, (p = .package ∨ p = .body) → LDecl.Toks p x u → u.length ≤ n → ∃ t, MDc A t x ∧ Rd None' (inner I p) u R t)
include hno hin

omit g hM in
theorem package_rd {p : Place} {nm : Str} {l : List LDecl} {kw : Bool} {en : Option Str} {w R : List VTok} (h : LDecl.Toks p (.package nm l kw en) w)
    (hn : w.length ≤ n + 1) : ∃ ts, List.Forall₂ (MDc A) ts l ∧ Rd None' (packageDeclaration (gx M d e) I.pkg) w R (nm, [], ts) := by
  simp only [LDecl.Toks] at h
  obtain ⟨w0, _, rfl, h0, w1, _, rfl, h1, w2, _, rfl, h2, w3, w4, rfl, h3, h4⟩ := h
  have l0 : w0.length = 1 := by obtain ⟨y, rfl, -⟩ := h0; rfl
  simp only [List.length_append] at hn
  obtain ⟨ts, m, f⟩ := decls_rd (p := .package) (hno .package) (fun x u R hx hu => hin .package x u R (.inl rfl) hx hu) h3 (R := w4 ++ R) (by omega) (endOpt_nx h4)
  refine ⟨ts, m, Rd.tok h0 (Rd.bindN (ident_rd h1) (Rd.tok h2 (Rd.bindN (u := []) (a := Option.none) (Rd.none (bind_nil (bind_nil ?_))) (Rd.bindN f
    (endOpt_rd h4 (fun u R hu => ?_) (fun R hR => hR.tok (by decide)) _)))))⟩
  · exact (Nx.assoc (decls_nx h3 (endOpt_nx (R := R) h4))).tok (by decide)
  · obtain ⟨y, rfl, hy⟩ := hu; exact ⟨_, First.tok hy _⟩

omit g hM in
theorem packageBody_rd {nm : Str} {l : List LDecl} {kw : Bool} {en : Option Str} {w R : List VTok}
    (h : Cat (Word .PACKAGE) (Cat (Word .BODY) (Cat (Ident nm) (Cat (Word .IS) (Cat (declsToks .body l)
      (endOpt (Cat (Word .PACKAGE) (Word .BODY)) kw en))))) w)
    (hn : w.length ≤ n + 1) : ∃ ts, List.Forall₂ (MDc A) ts l ∧ Rd None' (packageBodyRule I.proc) w R (nm, ts) := by
  obtain ⟨w0, _, rfl, h0, w9, _, rfl, h9, w1, _, rfl, h1, w2, _, rfl, h2, w3, w4, rfl, h3, h4⟩ := h
  have l0 : w0.length = 1 := by obtain ⟨y, rfl, -⟩ := h0; rfl
  simp only [List.length_append] at hn
  obtain ⟨ts, m, f⟩ := decls_rd (p := .body) (hno .body) (fun x u R hx hu => hin .body x u R (.inr rfl) hx hu) h3 (R := w4 ++ R) (by omega) (endOpt_nx h4)
  refine ⟨ts, m, Rd.tok h0 (Rd.tok h9 (Rd.bindN (ident_rd h1) (Rd.tok h2 (Rd.bindN f
    (endOpt_rd h4 (fun u R hu => ?_) (fun R hR => bind_nil (hR.tok (by decide))) _)))))⟩
  obtain ⟨_, _, rfl, hu, ⟨y, rfl, hy⟩⟩ := hu
  exact ⟨_, Rd.tok hu (First.tok hy _)⟩

theorem subBody_rd {s : LSpec} {ds : List LDecl} {ss : List LSeq} {kw : Option Kw} {en : Option Designator} {w R : List VTok}
    (h : Cat s.Toks (Cat (Word .IS) (Cat (declsToks .body ds) (Cat (Word .BEGIN) (Cat (seqsToks ss) (Cat (Word .END) (Cat (Opt' subKind kw)
      (Cat (Opt' Designator.Tok en) (One .SEMI)))))))) w)
    (hn : w.length ≤ n + 1) (hk : w.length ≤ k) (he : k ≤ e) :
    (∃ t, MDc A t (.subBody s ds ss kw en) ∧ Rd None' (subprogramBody (gx M d e) I.proc) w R t) ∧
      subprogramDeclaration (gx M d e) (w ++ R) = [] ∧ ∀ E, subprogramInstantiation E (w ++ R) = [] := by
  obtain ⟨w0, _, rfl, h0, w1, _, rfl, h1, w2, _, rfl, h2, w3, _, rfl, h3, w4, _, rfl, h4, w5, _, rfl, h5, w6, _, rfl, h6, w7, w8, rfl, h7, h8⟩ := h
  have l1 : w1.length = 1 := by obtain ⟨y, rfl, -⟩ := h1; rfl
  simp only [List.length_append] at hn hk
  have e1 : Nx [.kw .IS] ((w1 ++ (w2 ++ (w3 ++ (w4 ++ (w5 ++ (w6 ++ (w7 ++ w8))))))) ++ R) := Nx.cat h1 (by decide)
  have e3 : Nx afterDecls ((w3 ++ (w4 ++ (w5 ++ (w6 ++ (w7 ++ w8))))) ++ R) := Nx.cat h3 (by decide)
  have e8 : Nx [.SEMI] (w8 ++ R) := Nx.one h8 (by decide)
  refine ⟨?_, ?_, fun E => ?_⟩
  · obtain ⟨t, mt, ft⟩ := spec_rd (d := d) (e := e) g hM h0 (by omega) (e1.mono (by decide))
    obtain ⟨ts, m, f⟩ := decls_rd (p := .body) (hno .body) (fun x u R hx hu => hin .body x u R (.inr rfl) hx hu) h2 (by omega) e3
    obtain ⟨tq, mq, fq⟩ := seqs_rd (n := k) (A := A) (stm := seqStm (env M) e) (fun R hR => seqStm_no hR)
      (fun s u R hs hu => seqStm_rd g hM e s u R hs hu (by omega)) h4 (R := (w5 ++ (w6 ++ (w7 ++ w8))) ++ R) (by omega) (Nx.cat h5 (by decide))
    have n7 : Nx [.BASIC_IDENTIFIER, .EXTENDED_IDENTIFIER, .STRING_LITERAL, .SEMI] ((w7 ++ w8) ++ R) := by
      cases en with
      | none => cases h7; exact e8.mono (by decide)
      | some x =>
        cases x with
        | ident s => exact Nx.assoc ((Ident.nx h7).mono (by decide))
        | opSymbol s => obtain ⟨y, rfl, hy, -⟩ := h7; exact ⟨_, congrArg Option.some hy, by decide⟩
    obtain ⟨x7, f7⟩ : ∃ x, Rd None' (opt designator) w7 (w8 ++ R) x := by
      cases en with
      | none => cases h7; exact ⟨_, Rd.none (or_nil (bind_nil (ident_nil e8 (by decide) (by decide))) (bind_nil (e8.tok (by decide))))⟩
      | some x => exact ⟨_, Rd.some (desig_rd h7)⟩
    obtain ⟨x6, f6⟩ : ∃ x, Rd None' (opt subprogramKind) w6 ((w7 ++ w8) ++ R) x := by
      cases kw with
      | none =>
        cases h6
        refine ⟨_, Rd.none ?_⟩
        exact or_nil (bind_nil (n7.tok (by decide))) (bind_nil (n7.tok (by decide)))
      | some x =>
        obtain ⟨hx, y, rfl, hy⟩ := h6
        refine ⟨Option.some (), Rd.some (First.of_eq ?_)⟩
        rcases hx with rfl | rfl <;> simp [subprogramKind, toks, alts, or_apply, bind_apply, pure_apply, tok_cons, hy]
    refine ⟨.subBody t ts tq, ⟨fun B => ?_, fun o => ?_⟩, Rd.bindN ft (Rd.tok h1 (Rd.bindN f (Rd.tok h3 (Rd.bindN fq (Rd.tok h5 (Rd.bindN f6
      (Rd.bindN f7 (Rd.last h8))))))))⟩
    · simp only [evDecl, LDecl.eval, mt.ev, (decls_eq m).1, (seqs_eq mq).1]
    · simp only [LDecl.Ok] at o
      simp only [okDecl]
      exact ⟨mt.ok o.1, (decls_eq m).2 o.2.1, (seqs_eq mq).2 o.2.2⟩
  · rw [List.append_assoc]
    exact spec_no (d := d) (e := e) g hM h0 (by omega) e1
  · rw [List.append_assoc, List.append_assoc]
    exact subInst_no h0 h1 ((Nx.assoc (decls_nx h2 e3)).not (by decide))

theorem common_subprogram {p : Place} {s : LSpec} {w R : List VTok} (h : LDecl.Toks p (.subprogram s) w) (hk : w.length ≤ k)
    (hn : w.length ≤ n + 1) : ∃ q, MDc A q (.subprogram s) ∧ Rd None' (commonItem (gx M d e) I) w R q := by
  rw [common_eq]
  simp only [LDecl.Toks] at h
  obtain ⟨w0, w1, rfl, h0, h1⟩ := h
  simp only [List.length_append] at hk
  obtain ⟨t, mt, ft⟩ := spec_rd (d := d) (e := e) g hM h0 (R := w1 ++ R) (by omega) (Nx.one h1 (by decide))
  exact ⟨.subprogram t, ⟨fun B => by simp only [evDecl, LDecl.eval, mt.ev], fun o => by simp only [LDecl.Ok] at o; exact mt.ok o⟩,
    Rd.orL (Rd.bindN ft (Rd.last h1))⟩

theorem common_package {p : Place} {nm : Str} {l : List LDecl} {kw : Bool} {en : Option Str} {w R : List VTok} (h : LDecl.Toks p (.package nm l kw en) w) (hk : w.length ≤ k)
    (hn : w.length ≤ n + 1) : ∃ q, MDc A q (.package nm l kw en) ∧ Rd None' (commonItem (gx M d e) I) w R q := by
  rw [common_eq]
  obtain ⟨ts, m, f⟩ := package_rd (M := M) (d := d) (e := e) hno hin h (R := R) hn
  have hx : Nx [.kw .PACKAGE] (w ++ R) := by simp only [LDecl.Toks] at h; obtain ⟨u, v, rfl, hu, -⟩ := h; exact Nx.cat hu (by decide)
  refine ⟨.package nm [] ts, ⟨fun B => ?_, fun o => ?_⟩, ?_⟩
  · simp only [evDecl, LDecl.eval, (decls_eq m).1, List.flatMap_nil]
  · simp only [LDecl.Ok] at o; exact ⟨rfl, (decls_eq m).2 o⟩
  · skip hx st_subDecl; skip hx st_subInst
    exact Rd.orL (Rd.map (g := fun x : Str × List Intf × List Decl => Decl.package x.1 x.2.1 x.2.2) f)

theorem common_typeIncomplete {p : Place} {nm : Str} {w R : List VTok} (h : LDecl.Toks p (.typeIncomplete nm) w) (hk : w.length ≤ k)
    (hn : w.length ≤ n + 1) : ∃ q, MDc A q (.typeIncomplete nm) ∧ Rd None' (commonItem (gx M d e) I) w R q := by
  rw [common_eq]
  simp only [LDecl.Toks] at h
  obtain ⟨w0, _, rfl, h0, w1, w2, rfl, h1, h2⟩ := h
  have hx : Nx [.kw .TYPE] ((w0 ++ (w1 ++ w2)) ++ R) := Nx.cat h0 (by decide)
  refine ⟨.typeIncomplete nm, ⟨fun B => by simp only [evDecl, LDecl.eval], fun _ => trivial⟩, ?_⟩
  skip hx st_subDecl; skip hx st_subInst; skip hx (Starts.bind st_pkg); skip hx (Starts.bind st_pkgInst)
  refine Rd.orL (Rd.orN ?_ (Rd.tok h0 (Rd.bindN (ident_rd h1) (Rd.last h2))))
  obtain ⟨y, rfl, hy⟩ := h0
  obtain ⟨z, rfl, hz⟩ := h1
  obtain ⟨v, rfl, hv⟩ := h2
  obtain ⟨hz | hz, -⟩ := hz <;> simp [identifier, or_apply, bind_apply, tok_cons, hy, hz, hv]

theorem common_type {p : Place} {nm : Str} {t : LTypeDef} {w R : List VTok} (h : LDecl.Toks p (.type nm t) w) (hk : w.length ≤ k)
    (hn : w.length ≤ n + 1) : ∃ q, MDc A q (.type nm t) ∧ Rd None' (commonItem (gx M d e) I) w R q := by
  rw [common_eq]
  simp only [LDecl.Toks] at h
  obtain ⟨w0, _, rfl, h0, w1, _, rfl, h1, w2, _, rfl, h2, w3, w4, rfl, h3, h4⟩ := h
  simp only [List.length_append] at hk
  have hx : Nx [.kw .TYPE] ((w0 ++ (w1 ++ (w2 ++ (w3 ++ w4)))) ++ R) := Nx.cat h0 (by decide)
  obtain ⟨tt, mt, ft⟩ := typeDef_rd (d := protectedItem (gx M d e)) (b := I.proc) g hM h3 (R := w4 ++ R) (by omega) (Nx.one h4 (by decide))
  refine ⟨.type nm tt, ⟨fun B => by simp only [evDecl, LDecl.eval, mt.ev], fun o => by simp only [LDecl.Ok] at o; exact mt.ok o⟩, ?_⟩
  skip hx st_subDecl; skip hx st_subInst; skip hx (Starts.bind st_pkg); skip hx (Starts.bind st_pkgInst)
  exact Rd.orL (Rd.orL (Rd.tok h0 (Rd.bindN (ident_rd h1) (Rd.tok h2 (Rd.head ft (Rd.last h4) fun _ s hs => bind_nil (hs.tok rfl))))))

theorem common_subtype {p : Place} {nm : Str} {s : LSub} {w R : List VTok} (h : LDecl.Toks p (.subtype nm s) w) (hk : w.length ≤ k)
    (hn : w.length ≤ n + 1) : ∃ q, MDc A q (.subtype nm s) ∧ Rd None' (commonItem (gx M d e) I) w R q := by
  rw [common_eq]
  simp only [LDecl.Toks] at h
  obtain ⟨w0, _, rfl, h0, w1, _, rfl, h1, w2, _, rfl, h2, w3, w4, rfl, h3, h4⟩ := h
  simp only [List.length_append] at hk
  have hx : Nx [.kw .SUBTYPE] ((w0 ++ (w1 ++ (w2 ++ (w3 ++ w4)))) ++ R) := Nx.cat h0 (by decide)
  obtain ⟨tt, mt, ft⟩ := sub_rd g hM h3 (R := w4 ++ R) (by omega) ((Nx.one h4 (L := [.SEMI]) (by decide)).closes (by decide))
  refine ⟨.subtype nm tt, ⟨fun B => by simp only [evDecl, LDecl.eval, mt.ev], fun o => by simp only [LDecl.Ok] at o; exact mt.ok o⟩, ?_⟩
  skip hx st_subDecl; skip hx st_subInst; skip hx (Starts.bind st_pkg); skip hx (Starts.bind st_pkgInst); skip hx st_type
  exact Rd.orL (Rd.tok h0 (Rd.bindN (ident_rd h1) (Rd.tok h2 (Rd.head ft (Rd.last h4) fun _ s hs => bind_nil (hs.tok rfl)))))

theorem common_constant {p : Place} {v : LVars} {w R : List VTok} (h : LDecl.Toks p (.constant v) w) (hk : w.length ≤ k)
    (hn : w.length ≤ n + 1) : ∃ q, MDc A q (.constant v) ∧ Rd None' (commonItem (gx M d e) I) w R q := by
  rw [common_eq]
  simp only [LDecl.Toks] at h
  obtain ⟨w0, w1, rfl, h0, h1⟩ := h
  simp only [List.length_append] at hk
  have hx : Nx [.kw .CONSTANT] ((w0 ++ w1) ++ R) := Nx.cat h0 (by decide)
  obtain ⟨t, mt, ft⟩ := vars_rd g hM h1 (R := R) (by omega) Decl.constant
  refine ⟨.constant t, ⟨fun B => by simp only [evDecl, LDecl.eval, mt.ev], fun o => by simp only [LDecl.Ok] at o; exact mt.ok o⟩, ?_⟩
  skip hx st_subDecl; skip hx st_subInst; skip hx (Starts.bind st_pkg); skip hx (Starts.bind st_pkgInst); skip hx st_type; skip hx st_subtype
  exact Rd.orL (Rd.tok h0 ft)

theorem common_variable {p : Place} {sh : Bool} {v : LVars} {w R : List VTok} (h : LDecl.Toks p (.variable sh v) w) (hk : w.length ≤ k)
    (hn : w.length ≤ n + 1) : ∃ q, MDc A q (.variable sh v) ∧ Rd None' (commonItem (gx M d e) I) w R q := by
  rw [common_eq]
  simp only [LDecl.Toks] at h
  obtain ⟨w0, _, rfl, h0, w1, w2, rfl, h1, h2⟩ := h
  simp only [List.length_append] at hk
  have hx : Nx [.kw .SHARED, .kw .VARIABLE] ((w0 ++ (w1 ++ w2)) ++ R) := by
    cases sh with
    | false => cases h0; rw [List.nil_append]; exact Nx.cat h1 (by decide)
    | true => exact Nx.cat h0 (by decide)
  obtain ⟨t, mt, ft⟩ := vars_rd g hM h2 (R := R) (by omega) (Decl.variable sh)
  refine ⟨.variable sh t, ⟨fun B => by simp only [evDecl, LDecl.eval, mt.ev], fun o => by simp only [LDecl.Ok] at o; exact mt.ok o⟩, ?_⟩
  skip hx st_subDecl; skip hx st_subInst; skip hx (Starts.bind st_pkg); skip hx (Starts.bind st_pkgInst); skip hx st_type; skip hx st_subtype; skip hx st_const
  have f0 : Rd None' (flag (.kw .SHARED)) w0 ((w1 ++ w2) ++ R) sh := flag_rd h0 ((Nx.cat h1 (L := [.kw .VARIABLE]) (by decide)).not (by decide))
  exact Rd.orL (Rd.bindN f0 (Rd.tok h1 ft))

theorem common_alias {p : Place} {nm : NameLit} {t : Option LSub} {x : LName} {w R : List VTok} (h : LDecl.Toks p (.alias_ nm t x) w) (hk : w.length ≤ k)
    (hn : w.length ≤ n + 1) : ∃ q, MDc A q (.alias_ nm t x) ∧ Rd None' (commonItem (gx M d e) I) w R q := by
  rw [common_eq]
  simp only [LDecl.Toks] at h
  obtain ⟨w0, _, rfl, h0, w1, _, rfl, h1, w2, _, rfl, h2, w3, _, rfl, h3, w4, w5, rfl, h4, h5⟩ := h
  simp only [List.length_append] at hk
  have hx : Nx [.kw .ALIAS] ((w0 ++ (w1 ++ (w2 ++ (w3 ++ (w4 ++ w5))))) ++ R) := Nx.cat h0 (by decide)
  have e3 : Nx [.kw .IS] ((w3 ++ (w4 ++ w5)) ++ R) := Nx.cat h3 (by decide)
  have e5 : Nx [.SEMI] (w5 ++ R) := Nx.one h5 (by decide)
  obtain ⟨tn, mn, fn⟩ := name_rd g hM h4 (R := w5 ++ R) (by omega) e5 (by decide)
  obtain ⟨tt, mt, ft⟩ : ∃ tt, OM (MSb A) tt t ∧ Rd Dm (opt (tok .COLON >>= fun _ => (env M).subInd)) w2 ((w3 ++ (w4 ++ w5)) ++ R) tt := by
    cases t with
    | none => cases h2; exact ⟨Option.none, trivial, Rd.none (bind_nil (e3.tok (by decide)))⟩
    | some s =>
      obtain ⟨u, v, rfl, hu, hv⟩ := h2
      simp only [List.length_append] at hk
      obtain ⟨tt, mt, ft⟩ := sub_rd g hM hv (by omega) (e3.closes (by decide))
      exact ⟨Option.some tt, mt, Rd.some (Rd.tok hu ft)⟩
  have f1 : Rd None' entityTag w1 ((w2 ++ (w3 ++ (w4 ++ w5))) ++ R) (litText nm) := by
    obtain ⟨y, rfl, hy⟩ := h1
    refine First.of_eq ?_
    cases nm with
    | ident s => obtain ⟨hy | hy, rfl⟩ := hy <;> simp [entityTag, identifier, alts, or_apply, tok_cons, hy, litText]
    | opSymbol s => obtain ⟨hy, rfl⟩ := hy; simp [entityTag, identifier, alts, or_apply, tok_cons, hy, litText]
    | chr s => obtain ⟨hy, rfl⟩ := hy; simp [entityTag, identifier, alts, or_apply, tok_cons, hy, litText]
  refine ⟨.alias_ (litText nm) tt tn false, ⟨fun B => ?_, fun o => ?_⟩, ?_⟩
  · simp only [evDecl, LDecl.eval, mn.ev, mt.map (f := evSubInd A) (g := LSub.eval A) fun _ _ h => h.ev]
  · simp only [LDecl.Ok] at o
    refine ⟨fun s hs => ?_, mn.ok o.2, rfl⟩
    subst hs
    cases t with
    | none => exact mt.elim
    | some y => exact (show MSb A s y from mt).ok (o.1 y rfl)
  · skip hx st_subDecl; skip hx st_subInst; skip hx (Starts.bind st_pkg); skip hx (Starts.bind st_pkgInst); skip hx st_type; skip hx st_subtype; skip hx st_const; skip hx st_var; skip hx st_file
    refine Rd.orL (Rd.tok h0 (Rd.bindN f1 (Rd.head ft (Rd.tok h3 (Rd.bindN fn (Rd.bindN (u := []) (a := Option.none) (Rd.none (bind_nil (e5.tok (by decide))))
      (Rd.last h5)))) fun _ s hs => bind_nil (hs.tok rfl))))

theorem common_use {p : Place} {l : List LPath} {w R : List VTok} (h : LDecl.Toks p (.use l) w) (hk : w.length ≤ k)
    (hn : w.length ≤ n + 1) : ∃ q, MDc A q (.use l) ∧ Rd None' (commonItem (gx M d e) I) w R q := by
  rw [common_eq]
  simp only [LDecl.Toks] at h
  have hx : Nx [.kw .USE] (w ++ R) := by obtain ⟨u, v, rfl, hu, -⟩ := h; exact Nx.cat hu (by decide)
  refine ⟨.use (l.map fun p => ⟨p.head, p.rest⟩), ⟨fun B => ?_, fun o => ?_⟩, ?_⟩
  · simp only [evDecl, LDecl.eval, List.map_map]; rfl
  · simp only [LDecl.Ok] at o
    intro n hn
    obtain ⟨p, hp, rfl⟩ := List.mem_map.1 hn
    exact o p hp
  · skip hx st_subDecl; skip hx st_subInst; skip hx (Starts.bind st_pkg); skip hx (Starts.bind st_pkgInst); skip hx st_type; skip hx st_subtype; skip hx st_const; skip hx st_var; skip hx st_file; skip hx st_alias; skip hx st_attr; skip hx st_attrSpec
    exact Rd.orL (Rd.map (g := Decl.use) (use_rd h))

theorem common_rd {p : Place} {x : LDecl} {w R : List VTok} (h : LDecl.Toks p x w) (hk : w.length ≤ k) (hn : w.length ≤ n + 1) (hc : LDecl.Common x) :
    ∃ t, MDc A t x ∧ Rd None' (commonItem (gx M d e) I) w R t := by
  cases x with
  | signal => exact hc.elim
  | subBody => exact hc.elim
  | packageBody => exact hc.elim
  | component => exact hc.elim
  | subprogram s => exact common_subprogram g hM hno hin h hk hn
  | package nm l kw en => exact common_package g hM hno hin h hk hn
  | typeIncomplete nm => exact common_typeIncomplete g hM hno hin h hk hn
  | type nm t => exact common_type g hM hno hin h hk hn
  | subtype nm s => exact common_subtype g hM hno hin h hk hn
  | constant v => exact common_constant g hM hno hin h hk hn
  | «variable» sh v => exact common_variable g hM hno hin h hk hn
  | alias_ nm t x => exact common_alias g hM hno hin h hk hn
  | use l => exact common_use g hM hno hin h hk hn

end

/-! ## The four places -/

/-- What a declaration begins with. -/
def declStart : LDecl → List VT
  | .subprogram _ => specStart
  | .package .. => [.kw .PACKAGE]
  | .typeIncomplete _ => [.kw .TYPE]
  | .type .. => [.kw .TYPE]
  | .subtype .. => [.kw .SUBTYPE]
  | .constant _ => [.kw .CONSTANT]
  | .variable .. => [.kw .SHARED, .kw .VARIABLE]
  | .signal _ => [.kw .SIGNAL]
  | .alias_ .. => [.kw .ALIAS]
  | .use _ => [.kw .USE]
  | .subBody .. => specStart
  | .packageBody .. => [.kw .PACKAGE]
  | .component .. => [.kw .COMPONENT]

theorem LDecl.nxs {p : Place} {x : LDecl} {w R : List VTok} (h : LDecl.Toks p x w) : Nx (declStart x) (w ++ R) := by
  cases x <;> simp only [LDecl.Toks] at h
  case subprogram s => obtain ⟨u, v, rfl, hu, -⟩ := h; exact Nx.assoc ((LSpec.nx hu).mono fun _ h => h)
  case subBody s ds ss kw e => obtain ⟨-, u, v, rfl, hu, -⟩ := h; exact Nx.assoc ((LSpec.nx hu).mono fun _ h => h)
  case «variable» sh v =>
    obtain ⟨u, _, rfl, hu, x, y, rfl, hx, -⟩ := h
    cases sh with
    | false => cases hu; rw [List.nil_append]; exact Nx.cat hx (List.mem_cons_of_mem _ List.mem_cons_self)
    | true => exact Nx.cat hu List.mem_cons_self
  case signal => obtain ⟨-, u, v, rfl, hu, -⟩ := h; exact Nx.cat hu List.mem_cons_self
  case packageBody => obtain ⟨-, u, v, rfl, hu, -⟩ := h; exact Nx.cat hu List.mem_cons_self
  case component => obtain ⟨-, u, v, rfl, hu, -⟩ := h; exact Nx.cat hu List.mem_cons_self
  all_goals obtain ⟨u, v, rfl, hu, -⟩ := h; exact Nx.cat hu List.mem_cons_self

/-- The declarations that begin a subprogram fail all other alternatives. -/
theorem common_spec {G : Gr} {I : Items} {ts : List VTok} (h : Nx specStart ts) (h1 : subprogramDeclaration G ts = []) (h2 : subprogramInstantiation G.E ts = []) :
    commonItem G I ts = [] := by
  rw [common_eq]
  refine or_nil h1 (or_nil h2 (or_nil ((Starts.bind st_pkg).no h (by decide)) (or_nil ((Starts.bind st_pkgInst).no h (by decide)) (or_nil (st_type.no h (by decide))
    (or_nil (st_subtype.no h (by decide)) (or_nil (st_const.no h (by decide)) (or_nil (st_var.no h (by decide)) (or_nil (st_file.no h (by decide))
    (or_nil (st_alias.no h (by decide)) (or_nil (st_attr.no h (by decide)) (or_nil (st_attrSpec.no h (by decide)) (or_nil ((Starts.bind st_use).no h (by decide))
    (or_nil (Starts.tok.no h (by decide)) (Starts.tok.no h (by decide)))))))))))))))

/-- `package body` is no other declaration. -/
theorem common_body {G : Gr} {I : Items} {u v R : List VTok} (hu : Word .PACKAGE u) (hv : Word .BODY v) : commonItem G I ((u ++ v) ++ R) = [] := by
  have h : Nx [.kw .PACKAGE] ((u ++ v) ++ R) := Nx.cat hu (by decide)
  have key : ∀ {α : Type} {f : Str → P α}, (tok (.kw .PACKAGE) >>= fun _ => identifier >>= f) ((u ++ v) ++ R) = [] := by
    intro α f
    obtain ⟨y, rfl, hy⟩ := hu
    obtain ⟨z, rfl, hz⟩ := hv
    simp [identifier, or_apply, bind_apply, tok_cons, hy, hz]
  rw [common_eq]
  refine or_nil (st_subDecl.no h (by decide)) (or_nil (st_subInst.no h (by decide)) (or_nil (bind_nil key) (or_nil (bind_nil key) (or_nil (st_type.no h (by decide))
    (or_nil (st_subtype.no h (by decide)) (or_nil (st_const.no h (by decide)) (or_nil (st_var.no h (by decide)) (or_nil (st_file.no h (by decide))
    (or_nil (st_alias.no h (by decide)) (or_nil (st_attr.no h (by decide)) (or_nil (st_attrSpec.no h (by decide)) (or_nil ((Starts.bind st_use).no h (by decide))
    (or_nil (Starts.tok.no h (by decide)) (Starts.tok.no h (by decide)))))))))))))))

/-- What begins a declaration that can stand everywhere. -/
def commonStart : List VT := [.kw .PROCEDURE, .kw .PURE, .kw .IMPURE, .kw .FUNCTION, .kw .PACKAGE, .kw .TYPE, .kw .SUBTYPE, .kw .CONSTANT, .kw .SHARED,
  .kw .VARIABLE, .kw .FILE, .kw .ALIAS, .kw .ATTRIBUTE, .kw .USE, .kw .GROUP]

theorem st_common' {G : Gr} {I : Items} : Starts commonStart (commonItem G I) := by
  refine Starts.or (st_subDecl.mono (by decide)) (Starts.or (st_subInst.mono (by decide)) (Starts.or (Starts.mono (Starts.bind Starts.tok) (by decide))
    (Starts.or (Starts.mono (Starts.bind Starts.tok) (by decide)) (Starts.or (st_type.mono (by decide)) (Starts.or (Starts.mono Starts.tok (by decide))
    (Starts.or (Starts.mono Starts.tok (by decide)) (Starts.or (st_var.mono (by decide)) (Starts.or (Starts.mono Starts.tok (by decide))
    (Starts.or (Starts.mono Starts.tok (by decide)) (Starts.or (Starts.mono Starts.tok (by decide)) (Starts.or (Starts.mono Starts.tok (by decide))
    (Starts.or (Starts.mono (Starts.bind Starts.tok) (by decide)) (Starts.or (Starts.mono Starts.tok (by decide)) (Starts.mono Starts.tok (by decide)))))))))))))))

theorem st_process' {G : Gr} {I : Items} : Starts commonStart (processItem G I) :=
  Starts.or st_common' (Starts.or (st_subBody.mono (by decide)) (Starts.mono (Starts.bind Starts.tok) (by decide)))

theorem st_proc {G : Gr} : ∀ n, Starts commonStart (items G n).proc
  | 0 => fun _ _ => rfl
  | _ + 1 => st_process'

section
variable {V : Type} {A : Alg V} {k M d e : Nat} (g : Good A k) (hM : 3 * k + 2 < M)
include g hM

section
variable {n : Nat} {I : Items} (hno : ∀ p, Starts itemStart (inner I p))
  (hin : ∀ p x u R, (p = .package ∨ p = .body) → LDecl.Toks p x u → u.length ≤ n → ∃ t, MDc A t x ∧ Rd None' (inner I p) u R t)
include hno hin

theorem process_rd {p : Place} {x : LDecl} {w R : List VTok} (h : LDecl.Toks p x w) (_hp : p ≠ .package) (hk : w.length ≤ k) (hn : w.length ≤ n + 1) (he : k ≤ e)
    (hx : ∀ v, x ≠ .signal v) (hc : ∀ a b c d e, x ≠ .component a b c d e) : ∃ t, MDc A t x ∧ Rd None' (processItem (gx M d e) I) w R t := by
  have hs := LDecl.nxs (R := R) h
  by_cases hcm : LDecl.Common x
  · obtain ⟨t, m, f⟩ := common_rd (d := d) (e := e) g hM hno hin h (R := R) hk hn hcm
    exact ⟨t, m, Rd.orL f⟩
  · cases x with
    | signal v => exact (hx v rfl).elim
    | component a b c d e => exact (hc _ _ _ _ _ rfl).elim
    | subBody s ds ss kw en =>
      simp only [LDecl.Toks] at h
      obtain ⟨⟨t, m, f⟩, h1, h2⟩ := subBody_rd (d := d) (e := e) g hM hno hin h.2 (R := R) hn hk he
      exact ⟨t, m, Rd.orN (common_spec hs h1 (h2 _)) (Rd.orL f)⟩
    | packageBody nm l kw en =>
      simp only [LDecl.Toks] at h
      obtain ⟨ts, m, f⟩ := packageBody_rd hno hin h.2 (R := R) hn
      refine ⟨.packageBody nm ts, ⟨fun B => by simp only [evDecl, LDecl.eval, (decls_eq m).1], fun o => ?_⟩, Rd.orN ?_ (Rd.orN (st_subBody.no hs (by decide : ∀ t ∈ [VT.kw .PACKAGE], t ∉ specStart))
        (Rd.map (g := fun x : Str × List Decl => Decl.packageBody x.1 x.2) f))⟩
      · simp only [LDecl.Ok] at o; exact (decls_eq m).2 o
      · obtain ⟨-, w0, _, rfl, h0, w9, _, rfl, h9, -⟩ := h
        rw [← List.append_assoc, List.append_assoc]
        exact common_body h0 h9
    | _ => exact (hcm trivial).elim

theorem package_item {x : LDecl} {w R : List VTok} (h : LDecl.Toks .package x w) (hk : w.length ≤ k) (hn : w.length ≤ n + 1) :
    ∃ t, MDc A t x ∧ Rd None' (packageItem (gx M d e) I) w R t := by
  have hs := LDecl.nxs (R := R) h
  by_cases hcm : LDecl.Common x
  · obtain ⟨t, m, f⟩ := common_rd (d := d) (e := e) g hM hno hin h (R := R) hk hn hcm
    exact ⟨t, m, Rd.orL f⟩
  · cases x with
    | signal v =>
      simp only [LDecl.Toks] at h
      obtain ⟨t, m, f⟩ := signal_rd g hM h.2 (R := R) hk
      exact ⟨t, m, Rd.orN (st_common'.no hs (by decide : ∀ t ∈ [VT.kw .SIGNAL], t ∉ commonStart)) (Rd.orL f)⟩
    | component a b c d' e' =>
      obtain ⟨t, m, f⟩ := component_rd (d := d) (e := e) g hM h (R := R) hk
      exact ⟨t, m, Rd.orN (st_common'.no hs (by decide : ∀ t ∈ [VT.kw .COMPONENT], t ∉ commonStart))
        (Rd.orN (st_signal.no hs (by decide : ∀ t ∈ [VT.kw .COMPONENT], t ∉ [VT.kw .SIGNAL])) (Rd.orL f))⟩
    | subBody s ds ss kw en => simp only [LDecl.Toks] at h; exact (h.1 rfl).elim
    | packageBody nm l kw en => simp only [LDecl.Toks] at h; exact (h.1 rfl).elim
    | _ => exact (hcm trivial).elim

end

theorem items_rd (he : k ≤ e) : ∀ (n : Nat) (p : Place) (x : LDecl) (w R : List VTok), (p = .package ∨ p = .body) → LDecl.Toks p x w → w.length ≤ k → w.length ≤ n →
    ∃ t, MDc A t x ∧ Rd None' (inner (items (gx M d e) n) p) w R t
  | 0, p, x, w, R, _, h, _, hn => (LDecl.ne h (List.eq_nil_of_length_eq_zero (by omega))).elim
  | n + 1, p, x, w, R, hp, h, hk, hn => by
    have hno : ∀ p, Starts itemStart (inner (items (gx M d e) n) p) := fun p => by cases p <;> first | exact (st_items n).1 | exact (st_items n).2
    have hin := fun p x u R hp hx (hu : List.length u ≤ min n k) => items_rd he n p x u R hp hx (by omega) (by omega)
    rcases hp with rfl | rfl
    · exact package_item (n := min n k) g hM hno hin h hk (by omega)
    · refine process_rd (n := min n k) g hM hno hin h (by decide) hk (by omega) he ?_ ?_
      · rintro v rfl; simp only [LDecl.Toks] at h; exact h.1 rfl
      · rintro a b c d' e' rfl; simp only [LDecl.Toks] at h; exact absurd h.1 (by decide)

/-- The rule for declarations at a place. -/
def itemAt (G : Gr) (I : Items) : Place → P Decl
  | .entity => entityItem G I
  | .block => blockItem G I
  | .package => I.pkg
  | .body => I.proc

omit g hM in
theorem st_entity {G : Gr} (n : Nat) : Starts itemStart (entityItem G (items G n)) :=
  Starts.or (st_signal.mono (by decide)) (Starts.or (st_items n).1 (Starts.mono Starts.tok (by decide)))

omit g hM in
theorem st_itemAt {G : Gr} (n : Nat) : ∀ p, Starts itemStart (itemAt G (items G n) p)
  | .entity => st_entity n
  | .block => Starts.or (st_entity n) (Starts.or (st_comp.mono (by decide)) (st_config.mono (by decide)))
  | .package => (st_items n).2
  | .body => (st_items n).1

theorem item_rd (he : k ≤ e) {n : Nat} {p : Place} {x : LDecl} {w R : List VTok} (h : LDecl.Toks p x w) (hk : w.length ≤ k) (hn : w.length ≤ n) :
    ∃ t, MDc A t x ∧ Rd None' (itemAt (gx M d e) (items (gx M d e) n) p) w R t := by
  have entity : p = .entity ∨ p = .block → (∀ a b c d e, x ≠ .component a b c d e) →
      ∃ t, MDc A t x ∧ Rd None' (entityItem (gx M d e) (items (gx M d e) n)) w R t := by
    intro hp hc
    have hs := LDecl.nxs (R := R) h
    by_cases hx : ∃ v, x = .signal v
    · obtain ⟨v, rfl⟩ := hx
      simp only [LDecl.Toks] at h
      obtain ⟨t, m, f⟩ := signal_rd g hM h.2 (R := R) hk
      exact ⟨t, m, Rd.orL f⟩
    · have hb : LDecl.Toks .body x w := by
        cases x <;> simp only [LDecl.Toks] at h ⊢ <;> try exact h
        · exact (hx ⟨_, rfl⟩).elim
        · exact ⟨by decide, h.2⟩
        · exact ⟨by decide, h.2⟩
        · exact (hc _ _ _ _ _ rfl).elim
      obtain ⟨t, m, f⟩ := items_rd (d := d) g hM he n .body x w R (.inr rfl) hb hk hn
      refine ⟨t, m, Rd.orN (st_signal _ fun t ht => ?_) (Rd.orL f)⟩
      refine hs.not fun hm => ?_
      cases List.mem_singleton.1 ht
      cases x <;> first | exact (hx ⟨_, rfl⟩).elim | exact absurd hm (by simp only [declStart]; decide)
  cases p with
  | package => exact items_rd (d := d) g hM he n .package x w R (.inl rfl) h hk hn
  | body => exact items_rd (d := d) g hM he n .body x w R (.inr rfl) h hk hn
  | entity =>
    refine entity (.inl rfl) ?_
    rintro a b c d' e' rfl; simp only [LDecl.Toks] at h; exact absurd h.1 (by decide)
  | block =>
    by_cases hc : ∃ a b c d e, x = .component a b c d e
    · obtain ⟨a, b, c, d', e', rfl⟩ := hc
      have hs := LDecl.nxs (R := R) h
      obtain ⟨t, m, f⟩ := component_rd (d := d) (e := e) g hM h (R := R) hk
      refine ⟨t, m, Rd.orN (or_nil ?_ (or_nil ?_ ?_)) (Rd.orL f)⟩
      · exact st_signal.no hs (by decide : ∀ t ∈ [VT.kw .COMPONENT], t ∉ [VT.kw .SIGNAL])
      · exact (st_proc n).no hs (by decide : ∀ t ∈ [VT.kw .COMPONENT], t ∉ commonStart)
      · exact st_disc.no hs (by decide : ∀ t ∈ [VT.kw .COMPONENT], t ∉ [VT.kw .DISCONNECT])
    · obtain ⟨t, m, f⟩ := entity (.inr rfl) (by rintro a b c d' e' rfl; exact hc ⟨_, _, _, _, _, rfl⟩)
      exact ⟨t, m, Rd.orL f⟩

/-- The declarations at a place. -/
theorem itemsAt_rd (he : k ≤ e) {n : Nat} {p : Place} {l : List LDecl} {w R : List VTok} (h : declsToks p l w) (hk : w.length ≤ k) (hn : w.length ≤ n)
    (hR : Nx afterDecls R) : ∃ ts, List.Forall₂ (MDc A) ts l ∧ Rd None' (many (itemAt (gx M d e) (items (gx M d e) n) p)) w R ts :=
  decls_rd (n := w.length) (st_itemAt n p) (fun x u R hx hu => item_rd g hM he hx (by omega) (by omega)) h (Nat.le_refl _) hR

end
end Verif.Vhdl
