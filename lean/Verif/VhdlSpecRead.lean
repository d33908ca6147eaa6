import Verif.VhdlTypeRead
/-!
# VHDL: the parser reads subprogram specifications as the LRM says
-/
namespace Verif.Vhdl
open P Verif.Spec Verif.Spec.Lrm

/-! ## Parentheses -/

/-- What ends a subprogram specification. -/
def S5 : VT → Bool
  | .SEMI => true
  | .kw .IS => true
  | _ => false

theorem S5_S1 : ∀ t, S5 t = true → S1 t = true := by
  intro t h
  cases t with
  | kw k => cases k <;> first | rfl | cases h
  | _ => first | rfl | cases h

theorem seps_S5 : Seps S5 := fun t h => seps_S1 t (S5_S1 t h)

section
variable {M : Nat}

theorem name_bal : Snd BalR (env M).name := (sound_env M).name.bal
theorem expr_bal : Snd BalR ((env M).expression 0) := ((sound_env M).expression 0).ns1.bal
theorem subInd_bal : Snd BalR (env M).subInd := (sound_env M).subInd.bal
theorem ident_bal : Snd BalR identifier := identifier_flat.bal
theorem idents_bal : Snd BalR identifierList := sepBy_bal rfl rfl ident_bal
theorem flag_bal {t : VT} (h1 : isOpen t = false) (h2 : isClose t = false) : Snd BalR (flag t) :=
  Snd.bind balR_rel (Snd.opt balR_rel (tok_bal h1 h2)) fun _ => Snd.ret balR_rel _
theorem mode_bal : Snd BalR signalMode := toks_bal (by decide)
theorem genericMap_bal : Snd BalR (genericMap (env M)) :=
  Snd.bind balR_rel (tok_bal rfl rfl) fun _ => Snd.bind balR_rel (tok_bal rfl rfl) fun _ => (associationList_flat (sound_env M)).bal

/-- Proves that a rule uses up tokens with balanced parentheses. -/
macro "bal_tac" : tactic => `(tactic| repeat' with_reducible first
  | exact Snd.ret balR_rel _ | exact name_bal | exact expr_bal | exact subInd_bal | exact ident_bal | exact idents_bal
  | exact tok_bal (by decide) (by decide) | exact flag_bal (by decide) (by decide) | exact mode_bal | exact genericMap_bal | assumption
  | refine grp_bal (by decide) (by decide) ?_ fun _ => ?_
  | refine Snd.bind balR_rel ?_ fun _ => ?_
  | refine Snd.or ?_ ?_
  | refine Snd.opt balR_rel ?_)

theorem desig_bal : Snd BalR designator := by unfold designator; bal_tac
theorem init_bal : Snd BalR (initValue (env M)) := by unfold initValue; bal_tac
theorem params_bal {il : P (List Intf)} (h : Snd BalR il) : Snd BalR (parameterList il) := by unfold parameterList; bal_tac

theorem element_bal {il : P (List Intf)} (h : Snd BalR il) : Snd BalR (interfaceElement (env M) il) := by
  have hi := init_bal (M := M)
  have hp := params_bal h
  have hd := desig_bal
  refine Snd.or (Snd.or ?_ (Snd.or ?_ (Snd.or ?_ ?_))) (Snd.or ?_ (Snd.or ?_ ?_))
  · unfold interfaceConstant; bal_tac
  · unfold interfaceSignal; bal_tac
  · unfold interfaceVariable; bal_tac
  · unfold interfaceFile; simp only [alts]; bal_tac
  · unfold interfaceType; bal_tac
  · unfold interfaceSubprogram; bal_tac
  · unfold interfacePackage
    simp only [alts]
    bal_tac

theorem list_bal : ∀ d, Snd BalR (interfaceList (env M) d)
  | 0 => Snd.fail
  | d + 1 => sepBy_bal rfl rfl (element_bal (list_bal d))

/-- The rules of the grammar at some depths. -/
abbrev gx (M d e : Nat) : Gr := ⟨env M, interfaceList (env M) (d + 1), seqStm (env M) e⟩

variable {d e : Nat}

theorem spec_flat : Snd (FlatR S5) (subprogramSpecification (gx M d e)) := by
  have hR := flatR_rel S5
  have hd : Snd (FlatR S5) designator := Snd.or (Snd.bind hR (identifier_flat.s1.mono fun _ _ => FlatR.mono S5_S1) fun _ => Snd.ret hR _)
    (Snd.bind hR (tok_flat rfl rfl (by decide) rfl) fun _ => Snd.ret hR _)
  have hn : Snd (FlatR S5) (env M).name := (sound_env M).name.s1.mono fun _ _ => FlatR.mono S5_S1
  have hp : Snd (FlatR S5) (parameterList (interfaceList (env M) (d + 1))) :=
    Snd.bind hR (Snd.opt hR (Snd.bind hR (Snd.opt hR (tok_flat rfl rfl (by decide) rfl)) fun _ => grp_flat rfl rfl (list_bal _) fun _ => Snd.ret hR _))
      fun _ => Snd.ret hR _
  have ha : Snd (FlatR S5) (associationList (env M)) := (associationList_flat (sound_env M)).s1.mono fun _ _ => FlatR.mono S5_S1
  have hg : Snd (FlatR S5) (opt (subprogramHeader (gx M d e))) :=
    Snd.opt hR (Snd.bind hR (tok_flat rfl rfl (by decide) rfl) fun _ => grp_flat rfl rfl (list_bal _) fun _ => Snd.bind hR (Snd.opt hR
      (Snd.bind hR (tok_flat rfl rfl (by decide) rfl) fun _ => Snd.bind hR (tok_flat rfl rfl (by decide) rfl) fun _ => ha)) fun _ => Snd.ret hR _)
  refine Snd.or ?_ ?_
  · exact Snd.bind hR (tok_flat rfl rfl (by decide) rfl) fun _ => Snd.bind hR hd fun _ => Snd.bind hR hg fun _ => Snd.bind hR hp fun _ => Snd.ret hR _
  · exact Snd.bind hR (Snd.opt hR (toks_flat (by decide))) fun _ => Snd.bind hR (tok_flat rfl rfl (by decide) rfl) fun _ => Snd.bind hR hd fun _ =>
      Snd.bind hR hg fun _ => Snd.bind hR hp fun _ => Snd.bind hR (tok_flat rfl rfl (by decide) rfl) fun _ => Snd.bind hR hn fun _ => Snd.ret hR _

/-- What was read is flat. -/
theorem First.flat {α : Type} {D : List VTok → Prop} {p : P α} {S : VT → Bool} (hp : Snd (FlatR S) p) {w R : List VTok} {a : α} (h : Rd D p w R a) : Flat S w := by
  obtain ⟨pre, post, e, -⟩ := h
  obtain ⟨u, e', hu⟩ := hp _ _ (by rw [e]; simp : (a, R) ∈ p (w ++ R))
  simp only [List.append_cancel_right_eq] at e'
  rw [e']; exact hu

end

/-! ## Specifications -/

def LSpec.Ok : LSpec → Prop
  | .proc _ l => ∀ i ∈ l, LIntf.Ok .param i
  | .func _ _ l r => (∀ i ∈ l, LIntf.Ok .param i) ∧ LName.Ok r

structure MSp {V : Type} (A : Alg V) (t : SubSpec) (x : LSpec) : Prop where
  ev : ∀ {S : Type} (B : SAlg V S), evSubSpec A B t = x.eval A B
  ok : LSpec.Ok x → okSubSpec t

/-- What begins a subprogram specification. -/
def specStart : List VT := [.kw .PROCEDURE, .kw .PURE, .kw .IMPURE, .kw .FUNCTION]

theorem LSpec.nx {s : LSpec} {w R : List VTok} (h : s.Toks w) : Nx specStart (w ++ R) := by
  cases s with
  | proc d l => obtain ⟨u, v, rfl, hu, -⟩ := h; exact Nx.cat hu (by decide)
  | func p d l r =>
    obtain ⟨u, _, rfl, hu, v, x, rfl, hv, -⟩ := h
    cases p with
    | none => cases hu; rw [List.nil_append]; exact Nx.cat hv (by decide)
    | some b => cases b <;> exact Nx.cat hu (by decide)

theorem desig_rd {x : Designator} {w R : List VTok} (h : Designator.Tok x w) : Rd None' designator w R x := by
  cases x with
  | ident s => exact Rd.orL (Rd.map (g := Designator.ident) (ident_rd h))
  | opSymbol s =>
    obtain ⟨y, rfl, hy, rfl⟩ := h
    refine Rd.orN (bind_nil (or_nil (tok_neg (by rw [hy]; decide) _) (tok_neg (by rw [hy]; decide) _))) ?_
    exact First.map (f := Designator.opSymbol) (First.tok hy R)

section
variable {V : Type} {A : Alg V} {k M d e : Nat} (g : Good A k) (hM : 3 * k + 2 < M)
include g hM

omit g hM in
theorem params_nx {l : List LIntf} {w R : List VTok} (h : paramsToks l w) {L : List VT} (hR : Nx L R) : Nx (.LPAREN :: L) (w ++ R) := by
  cases l with
  | nil => cases h; exact hR.mono fun t ht => List.mem_cons_of_mem _ ht
  | cons i l => obtain ⟨u, v, rfl, hu, -⟩ := h; exact Nx.cat hu (by simp)

theorem spec_rd {s : LSpec} {w R : List VTok} (h : s.Toks w) (hk : w.length ≤ k) (hR : Nx [.SEMI, .kw .IS] R) :
    ∃ t, MSp A t s ∧ Rd None' (subprogramSpecification (gx M d e)) w R t := by
  cases s with
  | proc x l =>
    obtain ⟨w0, _, rfl, h0, w1, w2, rfl, h1, h2⟩ := h
    simp only [List.length_append] at hk
    obtain ⟨ts, m, f⟩ := params_rd (d := d) g hM h2 (R := R) (by omega) hR (by decide) (by decide)
    have f0 : Rd None' (opt (subprogramHeader (gx M d e))) [] (w2 ++ R) none := Rd.none (bind_nil ((params_nx h2 hR).tok (by decide)))
    have me := intfs_eq m .param
    refine ⟨.proc x [] ts, ⟨fun B => ?_, fun o => ⟨rfl, me.2 o⟩⟩, Rd.orL (Rd.tok h0 (Rd.bindN (desig_rd h1) (Rd.bindN (u := []) f0
      (Rd.map (g := SubSpec.proc x []) f))))⟩
    simp only [evSubSpec, LSpec.eval, me.1, List.flatMap_nil]
    cases x <;> rfl
  | func p x l r =>
    obtain ⟨wp, _, rfl, hp, w0, _, rfl, h0, w1, _, rfl, h1, w2, _, rfl, h2, w3, w4, rfl, h3, h4⟩ := h
    simp only [List.length_append] at hk
    have hret : Nx [.kw .RETURN] ((w3 ++ w4) ++ R) := Nx.cat h3 (by decide)
    obtain ⟨ts, m, f⟩ := params_rd (d := d) g hM h2 (R := (w3 ++ w4) ++ R) (by omega) hret (by decide) (by decide)
    obtain ⟨t, mt, ft⟩ := name_rd g hM h4 (R := R) (by omega) hR (by decide)
    have f0 : Rd None' (opt (subprogramHeader (gx M d e))) [] ((w2 ++ (w3 ++ w4)) ++ R) none :=
      Rd.none (bind_nil ((Nx.assoc (params_nx h2 hret)).tok (by decide)))
    have me := intfs_eq m .param
    have f1 : Rd None' (opt (toks [(.kw .PURE, false), (.kw .IMPURE, true)])) wp ((w0 ++ (w1 ++ (w2 ++ (w3 ++ w4)))) ++ R) p := by
      cases p with
      | none =>
        cases hp
        obtain ⟨y, rfl, hy⟩ := h0
        exact Rd.none (toks_neg (by rw [hy]; decide) _)
      | some b =>
        cases b <;> obtain ⟨y, rfl, hy⟩ := hp <;> refine Rd.some (First.of_eq ?_) <;>
          simp [toks, alts, or_apply, bind_apply, pure_apply, tok_cons, hy]
    refine ⟨.func (p.getD false) x [] ts t, ⟨fun B => ?_, fun o => ⟨rfl, me.2 o.1, mt.ok o.2⟩⟩, Rd.orN (bind_nil ?_) (Rd.bindN f1 (Rd.tok h0 (Rd.bindN (desig_rd h1)
      (Rd.bindN (u := []) f0 (Rd.bindN f (Rd.tok h3 (Rd.map (g := SubSpec.func (p.getD false) x [] ts) ft)))))))⟩
    · simp only [evSubSpec, LSpec.eval, me.1, mt.ev, List.flatMap_nil]
      rcases p with _ | _ | _ <;> cases x <;> rfl
    · have : Nx [.kw .PURE, .kw .IMPURE, .kw .FUNCTION] ((wp ++ (w0 ++ (w1 ++ (w2 ++ (w3 ++ w4))))) ++ R) := by
        cases p with
        | none => cases hp; rw [List.nil_append]; exact Nx.cat h0 (by decide)
        | some b => cases b <;> exact Nx.cat hp (by decide)
      exact this.tok (by decide)

/-- A specification followed by `is` is no declaration. -/
theorem spec_no {β : Type} {s : LSpec} {w R : List VTok} (h : s.Toks w) (hk : w.length ≤ k) (hR : Nx [.kw .IS] R) {f : SubSpec → Str → P β} :
    (subprogramSpecification (gx M d e) >>= fun a => tok .SEMI >>= f a) (w ++ R) = [] := by
  obtain ⟨t, -, ft⟩ := spec_rd (d := d) (e := e) g hM h hk (hR.mono (by decide))
  exact flat_no seps_S5 spec_flat (First.flat spec_flat ft) hR (by decide) rfl (by decide)

end
end Verif.Vhdl
