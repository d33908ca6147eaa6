import Verif.VhdlAssignLemmas
/-!
# VHDL sequential statements: selected assignments, assignments of variables, procedure calls
-/
namespace Verif.Vhdl
open P Verif.Spec Verif.Spec.Lrm

section
variable {V : Type} {A : Alg V} {k M : Nat} (g : Good A k) (hM : 3 * k + 2 < M)
include g hM

theorem waveSel_good {e : LExpr} {q : Bool} {x : LTarget} {d : LDelay} {y : LSel LWave} {w R : List VTok} (h : (LAssign.waveSel e q x d y).Toks w)
    (hk : w.length ≤ k) : ∃ a, MAs A (.sig a) (.waveSel e q x d y) ∧ Rd None' (signalAssignment (env M)) w R a := by
  obtain ⟨u1, _, rfl, h1, u2, _, rfl, h2, u3, _, rfl, h3, u4, _, rfl, h4, wt, _, rfl, ht, wa, _, rfl, ha, _, ws, rfl, ⟨wd, ww, rfl, hd, hw⟩, hs⟩ := h
  simp only [List.length_append] at hk
  rw [List.append_assoc wd]
  obtain ⟨te, me, fe⟩ := head_rd g hM h1 h2 h3 h4 (R := (wt ++ (wa ++ (wd ++ (ww ++ ws)))) ++ R) (by omega)
    (by rw [List.append_assoc]; exact LTarget.ne ht rfl (by decide))
  obtain ⟨tt, mt, ft⟩ := target_rd g hM ht (R := (wa ++ (wd ++ (ww ++ ws))) ++ R) (L := [.CONASGN]) (by omega) (Nx.cat ha (by decide)) (by decide)
  have hne : ∀ t, expStart t = false → t ≠ .kw .UNAFFECTED → ∀ R, next (ww ++ R) ≠ some t := by
    intro t h1 h2 R
    obtain ⟨_, v, rfl, ⟨w1, _, rfl, hw1, -⟩, -⟩ := hw
    rw [List.append_assoc, List.append_assoc]
    exact LWave.ne hw1 h1 h2
  obtain ⟨td, md, fd⟩ := delay_rd g hM hd (R := (ww ++ ws) ++ R) (by omega) (by rw [List.append_assoc]; exact hne _ rfl (by decide) _)
    (by rw [List.append_assoc]; exact hne _ rfl (by decide) _) (by rw [List.append_assoc]; exact hne _ rfl (by decide) _)
  obtain ⟨tw, mw, fw⟩ := selected_rd g hM (fun b u R hb hk hR => waveform_rd g hM hb hk hR) hw (R := ws ++ R) (by omega) (Nx.one hs (by decide))
  have hn := target_no (M := M) (L := [.kw .WITH]) (R := (u1 ++ (u2 ++ (u3 ++ (u4 ++ (wt ++ (wa ++ (wd ++ (ww ++ ws)))))))) ++ R)
    (Nx.cat h1 (by decide)) (by decide)
  refine ⟨.sel te q tt td tw, ⟨fun B => ?_, fun hok => hok.elim, rfl⟩, Rd.orN (or_nil (bind_nil hn) (or_nil (bind_nil hn) (bind_nil hn)))
    (Rd.orN (or_nil (bind_nil hn) (bind_nil hn)) (Rd.orL ?_))⟩
  · simp only [evSeqKind, evSigAssign, LAssign.eval]
    refine sel_eq (f := fun w => evDelay A B td (B.sig (evTarget A tt) (evWaveform A w)))
      (f' := fun w => LDelay.eval A B d (B.sig (LTarget.eval A x) (LWave.eval A w))) (fun a b h => ?_) me q mw
    simp only [md.ev, mt.ev, h.ev]
  · rw [show u1 ++ (u2 ++ (u3 ++ (u4 ++ (wt ++ (wa ++ (wd ++ (ww ++ ws))))))) = (u1 ++ (u2 ++ (u3 ++ u4))) ++ (wt ++ (wa ++ (wd ++ (ww ++ ws)))) from by simp]
    exact Rd.bindN fe (Rd.bindN ft (Rd.tok ha (Rd.bindN fd (Rd.head fw (Rd.last hs) fun _ s hs => bind_nil (dch_tok hs (by decide))))))

theorem forceSel_good {e : LExpr} {q : Bool} {x : LTarget} {m : Option ForceMode} {y : LSel LExpr} {w R : List VTok}
    (h : (LAssign.forceSel e q x m y).Toks w) (hk : w.length ≤ k) :
    ∃ a, MAs A (.sig a) (.forceSel e q x m y) ∧ Rd None' (signalAssignment (env M)) w R a := by
  obtain ⟨u1, _, rfl, h1, u2, _, rfl, h2, u3, _, rfl, h3, u4, _, rfl, h4, wt, _, rfl, ht, wa, _, rfl, ha, _, ws, rfl, ⟨wf, _, rfl, hf, wm, ww, rfl, hm, hw⟩, hs⟩ := h
  simp only [List.length_append] at hk
  rw [List.append_assoc wf, List.append_assoc wm]
  obtain ⟨te, me, fe⟩ := head_rd g hM h1 h2 h3 h4 (R := (wt ++ (wa ++ (wf ++ (wm ++ (ww ++ ws))))) ++ R) (by omega)
    (by rw [List.append_assoc]; exact LTarget.ne ht rfl (by decide))
  obtain ⟨tt, mt, ft⟩ := target_rd g hM ht (R := (wa ++ (wf ++ (wm ++ (ww ++ ws)))) ++ R) (L := [.CONASGN]) (by omega) (Nx.cat ha (by decide)) (by decide)
  have hne : ∀ t, expStart t = false → ∀ R, next (ww ++ R) ≠ some t := by
    intro t h1 R
    obtain ⟨_, v, rfl, ⟨w1, _, rfl, hw1, -⟩, -⟩ := hw
    rw [List.append_assoc, List.append_assoc]
    exact LExpr.ne hw1 h1
  obtain ⟨tw, mw, fw⟩ := selected_rd g hM (fun b u R hb hk hR => expr_rd g hM hb hk (hR.mono (by decide))) hw (R := ws ++ R) (by omega) (Nx.one hs (by decide))
  have hn := target_no (M := M) (L := [.kw .WITH]) (R := (u1 ++ (u2 ++ (u3 ++ (u4 ++ (wt ++ (wa ++ (wf ++ (wm ++ (ww ++ ws))))))))) ++ R)
    (Nx.cat h1 (by decide)) (by decide)
  refine ⟨.selForce te q tt m tw, ⟨fun B => ?_, fun hok => hok.elim, rfl⟩, Rd.orN (or_nil (bind_nil hn) (or_nil (bind_nil hn) (bind_nil hn)))
    (Rd.orN (or_nil (bind_nil hn) (bind_nil hn)) (Rd.orN ?_ ?_))⟩
  · simp only [evSeqKind, evSigAssign, LAssign.eval]
    refine sel_eq (f := fun x => B.force m (evTarget A tt) (evExpression A x)) (f' := fun y => B.force m (x.eval A) (y.eval A)) (fun a b h => ?_) me q mw
    simp only [mt.ev, h.ev]
  · rw [show (u1 ++ (u2 ++ (u3 ++ (u4 ++ (wt ++ (wa ++ (wf ++ (wm ++ (ww ++ ws))))))))) ++ R =
      u1 ++ (u2 ++ (u3 ++ (u4 ++ (wt ++ (wa ++ ((wf ++ (wm ++ (ww ++ ws))) ++ R)))))) from by simp]
    refine sel_no h1 h2 h3 h4 ht fun _ => tgt_after ht rfl ha fun _ _ => ?_
    have hn : Nx [.kw .FORCE, .kw .RELEASE] ((wf ++ (wm ++ (ww ++ ws))) ++ R) := Nx.cat hf (by decide)
    exact dw_no hn (bind_nil (bind_nil (bind_nil (waveform_no hn))))
  · rw [show u1 ++ (u2 ++ (u3 ++ (u4 ++ (wt ++ (wa ++ (wf ++ (wm ++ (ww ++ ws)))))))) =
      (u1 ++ (u2 ++ (u3 ++ u4))) ++ (wt ++ (wa ++ (wf ++ (wm ++ (ww ++ ws))))) from by simp]
    refine Rd.bindN fe (Rd.bindN ft (Rd.tok ha (Rd.tok hf (Rd.bindN (mode_rd hm ?_ ?_) (Rd.head fw (Rd.last hs) fun _ s hs => bind_nil (dch_tok hs (by decide)))))))
    · rw [List.append_assoc]; exact hne _ rfl _
    · rw [List.append_assoc]; exact hne _ rfl _

theorem var_good {x : LTarget} {y : LExpr} {w R : List VTok} (h : (LAssign.var x y).Toks w) (hk : w.length ≤ k) :
    signalAssignment (env M) (w ++ R) = [] ∧ ∃ a, MAs A (.var a) (.var x y) ∧ Rd None' (variableAssignment (env M)) w R a := by
  obtain ⟨wt, _, rfl, ht, wa, _, rfl, ha, we, ws, rfl, he, hs⟩ := h
  simp only [List.length_append] at hk
  obtain ⟨tt, mt, ft⟩ := target_rd g hM ht (R := (wa ++ (we ++ ws)) ++ R) (L := [.VARASGN]) (by omega) (Nx.cat ha (by decide)) (by decide)
  obtain ⟨te, me, fe⟩ := expr_rd g hM he (R := ws ++ R) (by omega) (Nx.one hs (by decide))
  refine ⟨?_, .simple tt te, ⟨fun B => ?_, fun hok => ⟨mt.ok hok.1, me.ok hok.2⟩, rfl⟩, Rd.orL (Rd.bindN ft (Rd.tok ha (Rd.head fe (Rd.last hs) fun _ => Kill.tok rfl)))⟩
  · rw [List.append_assoc]
    exact sig_no1 ht (L := [.VARASGN]) (Nx.cat ha (by decide)) (by decide) (by decide)
  · simp only [evSeqKind, evVarAssign, LAssign.eval, mt.ev, me.ev]

theorem varCond_good {x : LTarget} {y : LCond LExpr} {w R : List VTok} (h : (LAssign.varCond x y).Toks w) (hk : w.length ≤ k) :
    signalAssignment (env M) (w ++ R) = [] ∧ ∃ a, MAs A (.var a) (.varCond x y) ∧ Rd None' (variableAssignment (env M)) w R a := by
  obtain ⟨wt, _, rfl, ht, wa, _, rfl, ha, we, ws, rfl, he, hs⟩ := h
  simp only [List.length_append] at hk
  obtain ⟨tt, mt, ft⟩ := target_rd g hM ht (R := (wa ++ (we ++ ws)) ++ R) (L := [.VARASGN]) (by omega) (Nx.cat ha (by decide)) (by decide)
  obtain ⟨te, me, fe⟩ := conditional_rd g hM (fun b u R hb hk hR => expr_rd g hM hb hk (hR.mono (by decide))) (expr_s4 0) (fun b u hb => LExpr.flat4 hb) he
    (R := ws ++ R) (by omega) (Nx.one hs (by decide))
  refine ⟨?_, .cond tt ⟨te.1, te.2.1, te.2.2⟩, ⟨fun B => ?_, fun hok => hok.elim, rfl⟩, Rd.orN ?_ (Rd.orL
    (Rd.bindN ft (Rd.tok ha (Rd.head (Rd.map (g := fun x => (⟨x.1, x.2.1, x.2.2⟩ : CondExprs)) fe) (Rd.last hs) fun _ => Kill.tok rfl))))⟩
  · rw [List.append_assoc]
    exact sig_no1 ht (L := [.VARASGN]) (Nx.cat ha (by decide)) (by decide) (by decide)
  · simp only [evSeqKind, evVarAssign, LAssign.eval, mt.ev, evCondExprs_eq me]
  · rw [List.append_assoc, List.append_assoc]
    refine tgt_after ht rfl ha fun _ _ => ?_
    obtain ⟨_, v, rfl, ⟨w1, _, rfl, hw1, w2, w3, rfl, hw2, -⟩, -⟩ := he
    rw [show (w1 ++ (w2 ++ w3) ++ v ++ ws) ++ R = w1 ++ ((w2 ++ (w3 ++ (v ++ ws))) ++ R) from by simp]
    exact flat_no seps_S4 (expr_s4 0) (LExpr.flat4 hw1) (L := [.kw .WHEN]) (Nx.cat hw2 (by decide)) (by decide) rfl (by decide)

theorem varSel_good {e : LExpr} {q : Bool} {x : LTarget} {y : LSel LExpr} {w R : List VTok} (h : (LAssign.varSel e q x y).Toks w) (hk : w.length ≤ k) :
    signalAssignment (env M) (w ++ R) = [] ∧ ∃ a, MAs A (.var a) (.varSel e q x y) ∧ Rd None' (variableAssignment (env M)) w R a := by
  obtain ⟨u1, _, rfl, h1, u2, _, rfl, h2, u3, _, rfl, h3, u4, _, rfl, h4, wt, _, rfl, ht, wa, _, rfl, ha, ww, ws, rfl, hw, hs⟩ := h
  simp only [List.length_append] at hk
  obtain ⟨te, me, fe⟩ := head_rd g hM h1 h2 h3 h4 (R := (wt ++ (wa ++ (ww ++ ws))) ++ R) (by omega)
    (by rw [List.append_assoc]; exact LTarget.ne ht rfl (by decide))
  obtain ⟨tt, mt, ft⟩ := target_rd g hM ht (R := (wa ++ (ww ++ ws)) ++ R) (L := [.VARASGN]) (by omega) (Nx.cat ha (by decide)) (by decide)
  obtain ⟨tw, mw, fw⟩ := selected_rd g hM (fun b u R hb hk hR => expr_rd g hM hb hk (hR.mono (by decide))) hw (R := ws ++ R) (by omega) (Nx.one hs (by decide))
  have hn0 : Nx [.kw .WITH] ((u1 ++ (u2 ++ (u3 ++ (u4 ++ (wt ++ (wa ++ (ww ++ ws))))))) ++ R) := Nx.cat h1 (by decide)
  have hn := target_no (M := M) hn0 (by decide)
  refine ⟨sig_no2 hn0 (by decide) ?_ ?_, .sel te q tt tw, ⟨fun B => ?_, fun hok => hok.elim, rfl⟩, Rd.orN (bind_nil hn) (Rd.orN (bind_nil hn) ?_)⟩
  · rw [show (u1 ++ (u2 ++ (u3 ++ (u4 ++ (wt ++ (wa ++ (ww ++ ws))))))) ++ R = u1 ++ (u2 ++ (u3 ++ (u4 ++ (wt ++ ((wa ++ (ww ++ ws)) ++ R))))) from by simp]
    exact sel_no h1 h2 h3 h4 ht fun _ => tgt_no ht (L := [.VARASGN]) (Nx.cat ha (by decide)) (by decide) rfl (by decide)
  · rw [show (u1 ++ (u2 ++ (u3 ++ (u4 ++ (wt ++ (wa ++ (ww ++ ws))))))) ++ R = u1 ++ (u2 ++ (u3 ++ (u4 ++ (wt ++ ((wa ++ (ww ++ ws)) ++ R))))) from by simp]
    exact sel_no h1 h2 h3 h4 ht fun _ => tgt_no ht (L := [.VARASGN]) (Nx.cat ha (by decide)) (by decide) rfl (by decide)
  · simp only [evSeqKind, evVarAssign, LAssign.eval]
    refine sel_eq (f := fun x => B.var (evTarget A tt) (evExpression A x)) (f' := fun y => B.var (x.eval A) (y.eval A)) (fun a b h => ?_) me q mw
    simp only [mt.ev, h.ev]
  · rw [show u1 ++ (u2 ++ (u3 ++ (u4 ++ (wt ++ (wa ++ (ww ++ ws)))))) = (u1 ++ (u2 ++ (u3 ++ u4))) ++ (wt ++ (wa ++ (ww ++ ws))) from by simp]
    exact Rd.bindN fe (Rd.bindN ft (Rd.tok ha (Rd.head fw (Rd.last hs) fun _ s hs => bind_nil (dch_tok hs (by decide)))))

/-! ## Procedure calls -/

/-- The name of the procedure with its arguments. -/
def callName : LName → List LArg → LName
  | p, [] => p
  | p, a :: l => .call p a l

omit g hM in
theorem isProc_calls {p : LName} (h : p.isProc = true) : LName.calls A p = (p.eval A, []) ∧ LName.callLit p = LName.litOf p := by
  cases p with
  | lit => exact ⟨rfl, rfl⟩
  | sel => exact ⟨rfl, rfl⟩
  | _ => cases h

theorem call_good {p : LName} {args : List LArg} {w R : List VTok} (h : (LStm.call p args).Toks w) (hk : w.length ≤ k) :
    signalAssignment (env M) (w ++ R) = [] ∧ variableAssignment (env M) (w ++ R) = [] ∧ ∃ t, (∀ {S : Type} (B : SAlg V S), evCall A B t = B.call (p.eval A) (argsEval A args)) ∧
      (LName.Ok p → argsOk args → (∀ s ∈ [c! "assert", c! "report", c! "NEXT", c! "EXIT"], LName.litOf p ≠ some (.ident s)) → okCall t) ∧
      Rd None' (procedureCall (env M)) w R (.call t) := by
  simp only [LStm.Toks] at h
  obtain ⟨wn, ws, rfl, ⟨hp, hn⟩, hs⟩ := h
  rw [List.length_append] at hk
  have hn' : (callName p args).Toks wn := by cases args <;> exact hn
  obtain ⟨t, ht, f⟩ := name_rd g hM hn' (by omega) (R := ws ++ R) (L := [.SEMI]) (Nx.one hs (by decide)) (by decide)
  have hc := isProc_calls (A := A) hp
  have e1 : LName.calls A (callName p args) = (p.eval A, argsEval A args) := by
    cases args with
    | nil => exact hc.1
    | cons a l => simp only [callName, LName.calls, argsEval]
  have e2 : LName.callLit (callName p args) = LName.litOf p := by
    cases args with
    | nil => exact hc.2
    | cons a l => rfl
  refine ⟨?_, ?_, t, fun B => ?_, fun h1 h2 h3 => ⟨ht.ok ?_, ?_⟩, Rd.bindN f (Rd.last hs)⟩
  · rw [List.append_assoc]
    exact sig_no1 (x := .name (callName p args)) hn' (L := [.SEMI]) (Nx.one hs (by decide)) (by decide) (by decide)
  · rw [List.append_assoc]
    exact var_no1 (x := .name (callName p args)) hn' (L := [.SEMI]) (Nx.one hs (by decide)) (by decide) (by decide)
  · have h1 : evCall A B t = B.call (evCalls A t).1 (evCalls A t).2 := by cases t <;> rfl
    rw [h1, ht.call, e1]
  · cases args with
    | nil => exact h1
    | cons a l => simp only [callName, LName.Ok]; exact ⟨h1, h2.1, h2.2⟩
  · intro s hs e
    have h4 : Vhdl.callLit t = some (.ident s) := by
      cases t <;> simp only [procName] at e <;> simp only [Vhdl.callLit, e, nameLitOf] <;> first | (cases e; done) | (cases e; rfl)
    exact h3 s hs (by rw [← e2, ← ht.plit, h4])

end

end Verif.Vhdl
