import Verif.VhdlConcGood
/-!
# VHDL design units are read as the LRM says
-/
set_option linter.unusedSectionVars false
namespace Verif.Vhdl
open P Verif.Spec Verif.Spec.Lrm

/-! ## What is covered -/

def LCtx.Ok : LCtx → Prop
  | .library _ => True
  | .use l => ∀ p ∈ l, ∀ s ∈ p.rest, okSuffix s

def LLib.Ok : LLib → Prop
  | .entity _ g p ds _ _ => (∀ i ∈ g, LIntf.Ok .generic i) ∧ (∀ i ∈ p, LIntf.Ok .port i) ∧ declsOk ds
  | .arch _ x ds ss _ _ => LName.Ok x ∧ declsOk ds ∧ concsOk ss
  | .package _ l _ _ => declsOk l
  | .packageBody _ l _ _ => declsOk l

/-- What the AST keeps. -/
def LDesign.Ok (u : LDesign) : Prop := (∀ c ∈ u.ctx, LCtx.Ok c) ∧ LLib.Ok u.unit

/-- What the grammar accepts of the LRM. -/
def LLib.Reg : LLib → Prop
  | .arch _ _ _ ss _ _ => concsReg ss
  | _ => True

/-! ## Reading -/

structure MCx {V : Type} (A : Alg V) (t : ContextItem) (c : LCtx) : Prop where
  ev : ∀ {S : Type} (B : SAlg V S), evContextItem A B t = c.eval A B
  ok : LCtx.Ok c → okContextItem t

structure MLu {V : Type} (A : Alg V) (t : LibUnit) (c : LLib) : Prop where
  ev : ∀ {S : Type} (B : SAlg V S), evLibUnit A B t = [c.eval A B]
  ok : LLib.Ok c → okLibUnit t

structure MDu {V : Type} (A : Alg V) (t : DesignUnit) (u : LDesign) : Prop where
  ev : ∀ {S : Type} (B : SAlg V S), t.ctx.flatMap (evContextItem A B) ++ evLibUnit A B t.unit = u.eval A B
  ok : LDesign.Ok u → okDesignUnit t

def ctxStart : List VT := [.kw .LIBRARY, .kw .USE, .kw .CONTEXT]
def unitStart : List VT := [.kw .ENTITY, .kw .CONFIGURATION, .kw .PACKAGE, .kw .CONTEXT, .kw .ARCHITECTURE]
/-- What begins a library unit of the specification. -/
def libStart : List VT := [.kw .ENTITY, .kw .PACKAGE, .kw .ARCHITECTURE]

theorem st_ctx : Starts ctxStart contextItem :=
  Starts.or (Starts.tok.mono (by decide)) (Starts.or (Starts.bind (st_use.mono (by decide))) (Starts.tok.mono (by decide)))

section
variable {G : Gr} {I : Items} {conc : P Conc} {n : Nat}
theorem st_ent : Starts [.kw .ENTITY] (entityDeclaration G I) := Starts.tok
theorem st_conf {E : Env} : Starts [.kw .CONFIGURATION] (configurationDeclaration E n) := Starts.tok
theorem st_cdecl : Starts [.kw .CONTEXT] contextDeclaration := Starts.tok
theorem st_arch : Starts [.kw .ARCHITECTURE] (architectureBody G I conc) := Starts.tok
theorem st_unit : Starts unitStart (libraryUnit G I conc n) :=
  Starts.or (Starts.or (st_ent.mono (by decide)) (Starts.or (st_conf.mono (by decide)) (Starts.or (Starts.bind (st_pkg.mono (by decide)))
    (Starts.or (Starts.bind (st_pkgInst.mono (by decide))) (st_cdecl.mono (by decide))))))
    (Starts.or (st_arch.mono (by decide)) (Starts.bind (st_pkgBody.mono (by decide))))
end

theorem lib_nx {u : LLib} {w R : List VTok} (h : u.Toks w) : Nx libStart (w ++ R) := by
  cases u with
  | entity | arch => obtain ⟨u, _, rfl, hu, -⟩ := h; exact Nx.cat hu (by decide)
  | package => simp only [LLib.Toks, LDecl.Toks] at h; obtain ⟨u, _, rfl, hu, -⟩ := h; exact Nx.cat hu (by decide)
  | packageBody => simp only [LLib.Toks, LDecl.Toks] at h; obtain ⟨-, u, _, rfl, hu, -⟩ := h; exact Nx.cat hu (by decide)

section
variable {V : Type} {A : Alg V}

theorem ctx_rd {c : LCtx} {w R : List VTok} (h : c.Toks w) : ∃ t, MCx A t c ∧ Rd None' contextItem w R t := by
  cases c with
  | library l =>
    obtain ⟨w0, _, rfl, h0, w1, w2, rfl, h1, h2⟩ := h
    exact ⟨.library l, ⟨fun B => rfl, fun _ => trivial⟩, Rd.orL (Rd.tok h0 (Rd.bindN (idents_rd h1 (One.ne h2 (by decide))) (Rd.last h2)))⟩
  | use l =>
    have hx : Nx [.kw .USE] (w ++ R) := by obtain ⟨u, _, rfl, hu, -⟩ := h; exact Nx.cat hu (by decide)
    refine ⟨.use (l.map fun p => ⟨p.head, p.rest⟩), ⟨fun B => ?_, fun o => ?_⟩, Rd.orN (bind_nil (hx.tok (by decide))) (Rd.orL (Rd.map (g := ContextItem.use) (use_rd h)))⟩
    · simp only [evContextItem, LCtx.eval, List.map_map]
      rfl
    · intro x hx
      obtain ⟨p, hp, rfl⟩ := List.mem_map.1 hx
      exact o p hp

theorem ctxs_rd {l : List LCtx} {w R : List VTok} (h : Rep LCtx.Toks l w) (hR : Nx libStart R) : ∃ ts, List.Forall₂ (MCx A) ts l ∧ Rd None' (many contextItem) w R ts :=
  rep_rd (D := None') (C := Nx libStart) (Q := fun _ => True) (k := w.length) (fun _ h => h.elim) (fun R hR => st_ctx.no hR (by decide)) (fun _ _ => trivial)
    (fun _ _ _ _ => trivial)
    (fun b u h => by
      cases b with
      | library | use => obtain ⟨v0, _, rfl, ⟨y, rfl, -⟩, -⟩ := h; simp)
    (fun b u R h _ _ => ctx_rd h) h (Nat.le_refl _) hR

theorem ctxs_eq {ts : List ContextItem} {l : List LCtx} (h : List.Forall₂ (MCx A) ts l) :
    (∀ {S : Type} (B : SAlg V S), ts.flatMap (evContextItem A B) = l.flatMap (LCtx.eval A B)) ∧ ((∀ c ∈ l, LCtx.Ok c) → ∀ t ∈ ts, okContextItem t) := by
  induction h with
  | nil => exact ⟨fun B => rfl, fun _ _ h => nomatch h⟩
  | cons h _ ih =>
    refine ⟨fun B => by simp only [List.flatMap_cons, h.ev, ih.1], fun o t ht => ?_⟩
    rcases List.mem_cons.1 ht with rfl | ht
    · exact h.ok (o _ List.mem_cons_self)
    · exact ih.2 (fun c hc => o c (List.mem_cons_of_mem _ hc)) t ht

end

section
variable {V : Type} {A : Alg V} {k M d e n : Nat} (hA : ∀ f l, A.call f l = A.index f l) (g : Good A k) (hM : 3 * k + 2 < M) (he : k ≤ e)
include hA g hM he

theorem lib_rd {u : LLib} {w R : List VTok} (h : u.Toks w) (hr : LLib.Reg u) (hk : w.length ≤ k) (hn : w.length ≤ n) :
    ∃ t, MLu A t u ∧ Rd None' (libraryUnit (gx M d e) (items (gx M d e) n) (concStm (gx M d e) (items (gx M d e) n) n) n) w R t := by
  have hx := lib_nx (R := R) h
  have hno : ∀ p, Starts itemStart (inner (items (gx M d e) n) p) := fun p => by cases p <;> first | exact (st_items n).1 | exact (st_items n).2
  have hin := fun p x u R hp hx (hu : List.length u ≤ min n k) => items_rd (d := d) g hM he n p x u R hp hx (by omega) (by omega)
  cases u with
  | entity nm gs ps ds kw en =>
    obtain ⟨w0, _, rfl, h0, w1, _, rfl, h1, w2, _, rfl, h2, w3, _, rfl, h3, w4, _, rfl, h4, w5, w6, rfl, h5, h6⟩ := h
    simp only [List.length_append] at hk hn
    have n6 : Nx [.kw .END] (w6 ++ R) := by obtain ⟨v, _, rfl, hv, -⟩ := h6; exact Nx.cat hv (by decide)
    have n5 := Nx.assoc (decls_nx h5 n6)
    have n4 : next ((w4 ++ (w5 ++ w6)) ++ R) ≠ some (.kw .GENERIC) := by
      cases ps with
      | nil => cases h4; exact n5.not (by decide)
      | cons a l => obtain ⟨v, _, rfl, hv, -⟩ := h4; rw [List.append_assoc, List.append_assoc]; exact One.ne hv (by decide)
    obtain ⟨t3, m3, f3⟩ := clause_rd (d := d) g hM h3 (by omega) n4
    obtain ⟨t4, m4, f4⟩ := clause_rd (d := d) g hM h4 (by omega) (n5.not (by decide))
    obtain ⟨t5, m5, f5⟩ := itemsAt_rd (d := d) g hM he h5 (n := n) (R := w6 ++ R) (by omega) (by omega) (n6.mono (by decide))
    refine ⟨.entity nm (t3.getD []) (t4.getD []) t5 [], ⟨fun B => ?_, fun o => ?_⟩, Rd.orL (Rd.orL (Rd.tok h0 (Rd.bindN (ident_rd h1) (Rd.tok h2 (Rd.bindN f3
      (Rd.bindN f4 (Rd.bindN f5 (opt_rd0 (bind_nil (n6.tok (by decide))) (endOpt_rd h6 ?_ (fun R hR => hR.tok (by decide)) _)))))))))⟩
    · simp only [evLibUnit, LLib.eval, (intfs_eq m3 _).1, (intfs_eq m4 _).1, (decls_eq m5).1]
    · exact ⟨(intfs_eq m3 _).2 o.1, (intfs_eq m4 _).2 o.2.1, (decls_eq m5).2 o.2.2, rfl⟩
    · intro u R hu; obtain ⟨y, rfl, hy⟩ := hu; exact ⟨_, First.tok hy _⟩
  | arch nm x ds ss kw en =>
    obtain ⟨w0, _, rfl, h0, w1, _, rfl, h1, w2, _, rfl, h2, w3, _, rfl, ⟨-, h3⟩, w4, _, rfl, h4, w5, _, rfl, h5, w6, _, rfl, h6, w7, w8, rfl, h7, h8⟩ := h
    simp only [List.length_append] at hk hn
    have hx : Nx [.kw .ARCHITECTURE] ((w0 ++ (w1 ++ (w2 ++ (w3 ++ (w4 ++ (w5 ++ (w6 ++ (w7 ++ w8)))))))) ++ R) := Nx.cat h0 (by decide)
    have n8 : Nx [.kw .END] (w8 ++ R) := by obtain ⟨v, _, rfl, hv, -⟩ := h8; exact Nx.cat hv (by decide)
    have n4 : Nx [.kw .IS] ((w4 ++ (w5 ++ (w6 ++ (w7 ++ w8)))) ++ R) := Nx.cat h4 (by decide)
    obtain ⟨t3, m3, f3⟩ := name_rd g hM h3 (by omega) n4 (by decide)
    obtain ⟨t5, m5, f5⟩ := itemsAt_rd (d := d) g hM he h5 (n := n) (R := (w6 ++ (w7 ++ w8)) ++ R) (by omega) (by omega) (Nx.cat h6 (by decide))
    obtain ⟨t7, m7, f7⟩ := concs_rd (conc := concStm (gx M d e) (items (gx M d e) n) n) (n := n) (m := n) g hM he (fun R hR => concStm_no rfl hR n)
      (concStm_rd hA g hM he n) h7 hr (by omega) (by omega) (by omega) (n8.mono (by decide))
    refine ⟨.arch nm t3 t5 t7, ⟨fun B => ?_, fun o => ?_⟩, Rd.orN ?_ (Rd.orL (Rd.tok h0 (Rd.bindN (ident_rd h1) (Rd.tok h2 (Rd.bindN f3 (Rd.tok h4 (Rd.bindN f5
      (Rd.tok h6 (Rd.bindN f7 (endOpt_rd h8 ?_ (fun R hR => hR.tok (by decide)) _))))))))))⟩
    · simp only [evLibUnit, LLib.eval, m3.ev, (decls_eq m5).1, (concs_eq m7).1]
    · exact ⟨m3.ok o.1, (decls_eq m5).2 o.2.1, (concs_eq m7).2 o.2.2⟩
    · exact or_nil (st_ent.no hx (by decide)) (or_nil (st_conf.no hx (by decide)) (or_nil (bind_nil (st_pkg.no hx (by decide)))
        (or_nil (bind_nil (st_pkgInst.no hx (by decide))) (st_cdecl.no hx (by decide)))))
    · intro u R hu; obtain ⟨y, rfl, hy⟩ := hu; exact ⟨_, First.tok hy _⟩
  | package nm l kw en =>
    have hp : Nx [.kw .PACKAGE] (w ++ R) := by
      simp only [LLib.Toks, LDecl.Toks] at h; obtain ⟨u, _, rfl, hu, -⟩ := h; exact Nx.cat hu (by decide)
    obtain ⟨ts, m1, f⟩ := package_rd (M := M) (d := d) (e := e) (p := .block) hno hin h (R := R) (by omega)
    exact ⟨.package nm [] ts, ⟨fun B => by simp only [evLibUnit, LLib.eval, (decls_eq m1).1, List.flatMap_nil], fun o => ⟨rfl, (decls_eq m1).2 o⟩⟩,
      Rd.orL (Rd.orN (st_ent.no hp (by decide)) (Rd.orN (st_conf.no hp (by decide)) (Rd.orL
        (Rd.map (g := fun x : Str × List Intf × List Decl => LibUnit.package x.1 x.2.1 x.2.2) f))))⟩
  | packageBody nm l kw en =>
    simp only [LLib.Toks, LDecl.Toks] at h
    obtain ⟨ts, m1, f⟩ := packageBody_rd hno hin h.2 (R := R) (by omega)
    refine ⟨.packageBody nm ts, ⟨fun B => by simp only [evLibUnit, LLib.eval, (decls_eq m1).1], fun o => (decls_eq m1).2 o⟩, Rd.orN ?_ (Rd.orN ?_
      (Rd.map (g := fun x : Str × List Decl => LibUnit.packageBody x.1 x.2) f))⟩
    · obtain ⟨-, w0, _, rfl, h0, w9, r, rfl, h9, -⟩ := h
      have hp : Nx [.kw .PACKAGE] ((w0 ++ (w9 ++ r)) ++ R) := Nx.cat h0 (by decide)
      obtain ⟨y, rfl, hy⟩ := h0
      have hb : identifier ((w9 ++ r) ++ R) = [] := ident_nil (L := [.kw .BODY]) (Nx.cat h9 (by decide)) (by decide) (by decide)
      refine or_nil (st_ent.no hp (by decide)) (or_nil (st_conf.no hp (by decide)) (or_nil (bind_nil ?_) (or_nil (bind_nil ?_) (st_cdecl.no hp (by decide)))))
      · rw [packageDeclaration, bind_apply, List.append_assoc, List.singleton_append, tok_cons, if_pos hy]
        simp only [List.flatMap_cons, List.flatMap_nil, List.append_nil]
        exact bind_nil hb
      · rw [packageInstantiation, bind_apply, List.append_assoc, List.singleton_append, tok_cons, if_pos hy]
        simp only [List.flatMap_cons, List.flatMap_nil, List.append_nil]
        exact bind_nil hb
    · obtain ⟨-, w0, r, rfl, h0, -⟩ := h
      have hp : Nx [.kw .PACKAGE] ((w0 ++ r) ++ R) := Nx.cat h0 (by decide)
      exact st_arch.no hp (by decide)

theorem design_rd {u : LDesign} {w R : List VTok} (h : u.Toks w) (hr : LLib.Reg u.unit) (hk : w.length ≤ k) (hn : w.length ≤ n) :
    ∃ t, MDu A t u ∧ Rd None' (designUnit (gx M d e) (items (gx M d e) n) (concStm (gx M d e) (items (gx M d e) n) n) n) w R t := by
  obtain ⟨w0, w1, rfl, h0, h1⟩ := h
  rw [List.length_append] at hk hn
  obtain ⟨t0, m0, f0⟩ := ctxs_rd (A := A) h0 (lib_nx (R := R) h1)
  obtain ⟨t1, m1, f1⟩ := lib_rd (n := n) (d := d) hA g hM he h1 (R := R) hr (by omega) (by omega)
  exact ⟨⟨t0, t1⟩, ⟨fun B => by simp only [LDesign.eval, (ctxs_eq m0).1, m1.ev], fun o => ⟨(ctxs_eq m0).2 o.1, m1.ok o.2⟩⟩,
    Rd.bindN f0 (Rd.map (g := DesignUnit.mk t0) f1)⟩

theorem file_rd {l : List LDesign} {w : List VTok} (h : fileToks l w) (hr : ∀ u ∈ l, LLib.Reg u.unit) (hk : w.length ≤ k) (hn : w.length ≤ n) :
    ∃ ts, List.Forall₂ (MDu A) ts l ∧
      Rd None' (many (designUnit (gx M d e) (items (gx M d e) n) (concStm (gx M d e) (items (gx M d e) n) n) n)) w [] ts :=
  many_rd (T := fun u w => LDesign.Toks u w ∧ LLib.Reg u.unit) (LT := fun l w => fileToks l w ∧ ∀ u ∈ l, LLib.Reg u.unit) (M := MDu A) (D := None')
    (C := fun R => R = []) (Q := fun _ => True) (k := w.length) (fun _ h => h.elim)
    (fun R hR => by
      subst hR
      rw [designUnit, bind_apply, many_nil (st_ctx [] (by decide))]
      simp only [List.flatMap_cons, List.flatMap_nil, List.append_nil]
      exact bind_nil (st_unit [] (by decide)))
    (fun _ _ => trivial) (fun w h => h.1)
    (fun b l w h => by
      obtain ⟨⟨u, v, e, hu, hv⟩, h2⟩ := h
      exact ⟨u, v, e, ⟨hu, h2 b List.mem_cons_self⟩, hv, fun x hx => h2 x (List.mem_cons_of_mem _ hx)⟩)
    (fun _ _ _ _ => trivial)
    (fun b u h => by
      rintro rfl
      obtain ⟨⟨w0, w1, e, -, h1⟩, -⟩ := h
      obtain ⟨-, rfl⟩ := List.append_eq_nil_iff.1 e.symm
      obtain ⟨t, e, -⟩ := lib_nx (R := []) h1
      cases e)
    (fun b u R h hu _ => design_rd (n := n) (d := d) hA g hM he h.1 h.2 (by omega) (by omega)) l w ⟨h, hr⟩ (Nat.le_refl _) [] rfl

end

theorem designs_eq {V : Type} {A : Alg V} {ts : List DesignUnit} {l : List LDesign} (h : List.Forall₂ (MDu A) ts l) :
    (∀ {S : Type} (B : SAlg V S), evDesignFile A B ts = fileEval A B l) ∧ ((∀ u ∈ l, LDesign.Ok u) → ∀ t ∈ ts, okDesignUnit t) := by
  induction h with
  | nil => exact ⟨fun B => rfl, fun _ _ h => nomatch h⟩
  | cons h _ ih =>
    refine ⟨fun B => ?_, fun o t ht => ?_⟩
    · have := ih.1 B
      simp only [evDesignFile, fileEval] at this ⊢
      simp only [List.flatMap_cons, h.ev, this]
    · rcases List.mem_cons.1 ht with rfl | ht
      · exact h.ok (o _ List.mem_cons_self)
      · exact ih.2 (fun c hc => o c (List.mem_cons_of_mem _ hc)) t ht

theorem parse_file {V : Type} {A : Alg V} (hA : ∀ f l, A.call f l = A.index f l) {l : List LDesign} {w : List VTok} (h : fileToks l w)
    (hr : ∀ u ∈ l, LLib.Reg u.unit) : ∃ ts, List.Forall₂ (MDu A) ts l ∧ parseFile w = some ts := by
  cases w with
  | nil =>
    obtain ⟨ts, m, -⟩ := file_rd (n := 0) (d := 0) hA (good_all hA 0) (Nat.lt_succ_self 2) (Nat.le_refl 0) h hr (Nat.le_refl _) (Nat.le_refl _)
    cases l with
    | nil => cases m; exact ⟨[], .nil, by rfl⟩
    | cons u l =>
      obtain ⟨u', v, e, ⟨w0, w1, rfl, -, h1⟩, -⟩ := h
      have e := List.append_eq_nil_iff.1 e.symm
      have e := List.append_eq_nil_iff.1 e.1
      rw [e.2] at h1
      obtain ⟨t, e, -⟩ := lib_nx (R := []) h1
      cases e
  | cons y s =>
    obtain ⟨ts, m, f⟩ := file_rd (k := s.length + 1) (M := 4 * (s.length + 1) + 4) (d := s.length) (e := s.length + 1) (n := s.length + 1) hA
      (good_all hA _) (by omega) (Nat.le_refl _) h hr (Nat.le_refl _) (Nat.le_refl _)
    refine ⟨ts, m, ?_⟩
    unfold Rd at f
    rw [List.append_nil] at f
    have := First.find (q := List.isEmpty) f rfl fun _ h => h.elim
    exact congrArg (Option.map fun x : List DesignUnit × List VTok => x.1) this

end Verif.Vhdl
