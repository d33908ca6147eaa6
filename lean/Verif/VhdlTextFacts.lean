import Verif.VhdlNameLemmas
import Verif.VhdlExprLemmas
import Verif.Spec.VhdlText
/-!
# Facts about the token sequences of VHDL expressions
-/
namespace Verif.Vhdl
open P Verif.Spec Verif.Spec.Lrm

/-! ## Brackets and separators -/

theorem one_flat {S : VT → Bool} {t : VT} (h1 : isOpen t = false) (h2 : isClose t = false) (h3 : t ≠ .APOSTROPHE) (h4 : S t = false)
    {w : List VTok} (h : One t w) : Flat S w := by
  obtain ⟨x, rfl, hx⟩ := h
  exact .atom (by rw [hx]; exact h1) (by rw [hx]; exact h2) (by rw [hx]; exact h3) (by rw [hx]; exact h4) .nil

theorem oneT_flat {S : VT → Bool} {t : VT} {s : Str} (h1 : isOpen t = false) (h2 : isClose t = false) (h3 : t ≠ .APOSTROPHE) (h4 : S t = false)
    {w : List VTok} (h : OneT t s w) : Flat S w := by
  obtain ⟨x, rfl, hx, -⟩ := h
  exact one_flat h1 h2 h3 h4 ⟨x, rfl, hx⟩

theorem one_bal {t : VT} (h1 : isOpen t = false) (h2 : isClose t = false) {w : List VTok} (h : One t w) : Bal w := by
  obtain ⟨x, rfl, hx⟩ := h
  exact .atom (by rw [hx]; exact h1) (by rw [hx]; exact h2) .nil

theorem cat_flat {S : VT → Bool} {p q : List VTok → Prop} (hp : ∀ u, p u → Flat S u) (hq : ∀ u, q u → Flat S u) {w : List VTok}
    (h : Cat p q w) : Flat S w := by
  obtain ⟨u, v, rfl, hu, hv⟩ := h
  exact (hp u hu).append (hq v hv)

theorem cat_bal {p q : List VTok → Prop} (hp : ∀ u, p u → Bal u) (hq : ∀ u, q u → Bal u) {w : List VTok}
    (h : Cat p q w) : Bal w := by
  obtain ⟨u, v, rfl, hu, hv⟩ := h
  exact (hp u hu).append (hq v hv)

theorem paren_flat {S : VT → Bool} {p q : List VTok → Prop} (hp : ∀ u, p u → Bal u) (hq : ∀ u, q u → Bal u) {w : List VTok}
    (h : Cat (One .LPAREN) (Cat p (Cat q (One .RPAREN))) w) : Flat S w := by
  obtain ⟨_, _, rfl, ⟨o, rfl, ho⟩, u, _, rfl, hu, v, _, rfl, hv, c, rfl, hc⟩ := h
  have : [o] ++ (u ++ (v ++ [c])) = o :: ((u ++ v) ++ c :: []) := by simp
  rw [this]
  exact .grp (by rw [ho]; rfl) (by rw [hc]; rfl) ((hp u hu).append (hq v hv)) .nil

theorem nameLit_tok_start {l : NameLit} {x : VTok} (h : NameLit.Tok l x) : nameStart x.ty = true ∧ x.ty ≠ .SHIFT_LEFT := by
  cases l <;> simp only [NameLit.Tok] at h
  · rcases h.1 with h | h <;> rw [h] <;> exact ⟨rfl, by decide⟩
  · rw [h.1]; exact ⟨rfl, by decide⟩
  · rw [h.1]; exact ⟨rfl, by decide⟩

theorem nameLit_tok_flat {l : NameLit} {x : VTok} (h : NameLit.Tok l x) : Flat S2 [x] := by
  cases l <;> simp only [NameLit.Tok] at h
  · rcases h.1 with h | h <;> exact one_flat rfl rfl (by decide) rfl ⟨x, rfl, h⟩
  · exact one_flat rfl rfl (by decide) rfl ⟨x, rfl, h.1⟩
  · exact one_flat rfl rfl (by decide) rfl ⟨x, rfl, h.1⟩

theorem suffix_tok_flat {s : Suffix} {x : VTok} (h : Suffix.Tok s x) : Flat S2 [x] := by
  cases s with
  | lit l => exact nameLit_tok_flat h
  | all => exact one_flat rfl rfl (by decide) rfl ⟨x, rfl, h⟩

theorem attrTok_desig {d : Str} {x : VTok} (h : attrTok d x) : isDesig x.ty = true := by
  rcases h.1 with h | h | ⟨k, h⟩ <;> rw [h] <;> rfl

theorem logTy_flat (o : LogOp) : isOpen (logTy o) = false ∧ isClose (logTy o) = false ∧ logTy o ≠ .APOSTROPHE ∧ S2 (logTy o) = false := by
  cases o <;> decide
theorem relTy_flat (o : RelOp) : isOpen (relTy o) = false ∧ isClose (relTy o) = false ∧ relTy o ≠ .APOSTROPHE ∧ S2 (relTy o) = false := by
  cases o <;> decide
theorem shiftTy_flat (o : ShiftOp) : isOpen (shiftTy o) = false ∧ isClose (shiftTy o) = false ∧ shiftTy o ≠ .APOSTROPHE ∧ S2 (shiftTy o) = false := by
  cases o <;> decide
theorem addTy_flat (o : AddOp) : isOpen (addTy o) = false ∧ isClose (addTy o) = false ∧ addTy o ≠ .APOSTROPHE ∧ S2 (addTy o) = false := by
  cases o <;> decide
theorem signTy_flat (o : SignOp) : isOpen (signTy o) = false ∧ isClose (signTy o) = false ∧ signTy o ≠ .APOSTROPHE ∧ S2 (signTy o) = false := by
  cases o <;> decide
theorem mulTy_flat (o : MulOp) : isOpen (mulTy o) = false ∧ isClose (mulTy o) = false ∧ mulTy o ≠ .APOSTROPHE ∧ S2 (mulTy o) = false := by
  cases o <;> decide

theorem op_flat {t : VT} (h : isOpen t = false ∧ isClose t = false ∧ t ≠ .APOSTROPHE ∧ S2 t = false) {w : List VTok} (hw : One t w) :
    Flat S2 w := one_flat h.1 h.2.1 h.2.2.1 h.2.2.2 hw

mutual
theorem LName.flat : ∀ (n : LName) (w : List VTok), n.Toks w → Flat S2 w
  | .lit l, w, h => by
    obtain ⟨x, rfl, hx⟩ := h
    exact nameLit_tok_flat hx
  | .sel n s, w, h => by
    simp only [LName.Toks] at h
    exact cat_flat (LName.flat n) (fun u => cat_flat (fun u hu => one_flat rfl rfl (by decide) rfl hu)
      (fun u ⟨x, e, hx⟩ => e ▸ suffix_tok_flat hx)) h
  | .attr n d, w, h => by
    simp only [LName.Toks] at h
    obtain ⟨u, _, rfl, hu, _, _, rfl, ⟨a, rfl, ha⟩, x, rfl, hx⟩ := h
    exact (LName.flat n u hu).append (.attr ha (attrTok_desig hx) .nil)
  | .call n a l, w, h => by
    simp only [LName.Toks] at h
    exact cat_flat (LName.flat n) (fun u => paren_flat (LArg.bal a) (args_bal l)) h
  | .slice n a d b, w, h => by
    simp only [LName.Toks] at h
    obtain ⟨u, _, rfl, hu, _, _, rfl, ⟨o, rfl, ho⟩, wa, _, rfl, ha, _, _, rfl, hd, wb, _, rfl, hb, c, rfl, hc⟩ := h
    refine (LName.flat n u hu).append ?_
    have : ∀ v, [o] ++ (wa ++ (v ++ (wb ++ [c]))) = o :: ((wa ++ (v ++ wb)) ++ c :: []) := by intro v; simp
    rw [this]
    refine .grp (by rw [ho]; rfl) (by rw [hc]; rfl) ((LSimple.flat a wa ha).bal.append (Bal.append ?_ (LSimple.flat b wb hb).bal)) .nil
    cases d <;> exact one_bal rfl rfl hd
theorem LArg.bal : ∀ (a : LArg) (w : List VTok), a.Toks w → Bal w
  | .pos e, w, h => (LExpr.flat e w (by simpa only [LArg.Toks] using h)).bal
  | .opn, w, h => one_bal rfl rfl (by simpa only [LArg.Toks] using h)
  | .named f e, w, h => by
    simp only [LArg.Toks] at h
    exact cat_bal (fun u hu => (LName.flat f u hu).bal) (fun u => cat_bal (fun u hu => one_bal rfl rfl hu)
      (fun u hu => (LExpr.flat e u hu).bal)) h
theorem args_bal : ∀ (l : List LArg) (w : List VTok), argsToks l w → Bal w
  | [], w, h => by simp only [argsToks] at h; subst h; exact .nil
  | a :: l, w, h => by
    simp only [argsToks] at h
    exact cat_bal (fun u hu => one_bal rfl rfl hu) (fun u => cat_bal (LArg.bal a) (args_bal l)) h
theorem LPrim.flat : ∀ (p : LPrim) (w : List VTok), p.Toks w → Flat S2 w
  | .name n, w, h => LName.flat n w (by simpa only [LPrim.Toks] using h)
  | .dec t, w, h => by
    simp only [LPrim.Toks] at h
    exact oneT_flat rfl rfl (by decide) rfl h
  | .decUnit t u, w, h => by
    simp only [LPrim.Toks] at h
    exact cat_flat (fun u hu => oneT_flat rfl rfl (by decide) rfl hu) (LName.flat u) h
  | .based t, w, h => by
    simp only [LPrim.Toks] at h
    exact oneT_flat rfl rfl (by decide) rfl h
  | .basedUnit t u, w, h => by
    simp only [LPrim.Toks] at h
    exact cat_flat (fun u hu => oneT_flat rfl rfl (by decide) rfl hu) (LName.flat u) h
  | .bits t, w, h => by
    simp only [LPrim.Toks] at h
    exact oneT_flat rfl rfl (by decide) rfl h
  | .null, w, h => by
    simp only [LPrim.Toks] at h
    exact one_flat rfl rfl (by decide) rfl h
  | .group e l, w, h => by
    simp only [LPrim.Toks] at h
    exact paren_flat (LElem.bal e) (elems_bal l) h
  | .qual n e l, w, h => by
    simp only [LPrim.Toks] at h
    obtain ⟨u, _, rfl, hu, _, _, rfl, ⟨a, rfl, ha⟩, h⟩ := h
    refine (LName.flat n u hu).append ?_
    have hp := paren_flat (S := S2) (LElem.bal e) (elems_bal l) h
    obtain ⟨_, _, rfl, ⟨o, rfl, ho⟩, -⟩ := h
    exact .qual ha (by rw [ho]; rfl) hp
theorem LElem.bal : ∀ (a : LElem) (w : List VTok), a.Toks w → Bal w
  | .pos e, w, h => (LExpr.flat e w (by simpa only [LElem.Toks] using h)).bal
  | .named c l e, w, h => by
    simp only [LElem.Toks] at h
    exact cat_bal (LChoice.bal c) (fun u => cat_bal (choices_bal l) (fun u => cat_bal (fun u hu => one_bal rfl rfl hu)
      (fun u hu => (LExpr.flat e u hu).bal))) h
theorem elems_bal : ∀ (l : List LElem) (w : List VTok), elemsToks l w → Bal w
  | [], w, h => by simp only [elemsToks] at h; subst h; exact .nil
  | a :: l, w, h => by
    simp only [elemsToks] at h
    exact cat_bal (fun u hu => one_bal rfl rfl hu) (fun u => cat_bal (LElem.bal a) (elems_bal l)) h
theorem LChoice.bal : ∀ (a : LChoice) (w : List VTok), a.Toks w → Bal w
  | .expr s, w, h => (LSimple.flat s w (by simpa only [LChoice.Toks] using h)).bal
  | .range a d b, w, h => by
    simp only [LChoice.Toks] at h
    exact cat_bal (fun u hu => (LSimple.flat a u hu).bal) (fun u => cat_bal (fun u hu => by cases d <;> exact one_bal rfl rfl hu)
      (fun u hu => (LSimple.flat b u hu).bal)) h
  | .others, w, h => one_bal rfl rfl (by simpa only [LChoice.Toks] using h)
theorem choices_bal : ∀ (l : List LChoice) (w : List VTok), choicesToks l w → Bal w
  | [], w, h => by simp only [choicesToks] at h; subst h; exact .nil
  | a :: l, w, h => by
    simp only [choicesToks] at h
    exact cat_bal (fun u hu => one_bal rfl rfl hu) (fun u => cat_bal (LChoice.bal a) (choices_bal l)) h
theorem LFactor.flat : ∀ (f : LFactor) (w : List VTok), f.Toks w → Flat S2 w
  | .prim p, w, h => LPrim.flat p w (by simpa only [LFactor.Toks] using h)
  | .pow a b, w, h => by
    simp only [LFactor.Toks] at h
    exact cat_flat (LPrim.flat a) (fun u => cat_flat (fun u hu => one_flat rfl rfl (by decide) rfl hu) (LPrim.flat b)) h
  | .abs p, w, h => by
    simp only [LFactor.Toks] at h
    exact cat_flat (fun u hu => one_flat rfl rfl (by decide) rfl hu) (LPrim.flat p) h
  | .not p, w, h => by
    simp only [LFactor.Toks] at h
    exact cat_flat (fun u hu => one_flat rfl rfl (by decide) rfl hu) (LPrim.flat p) h
  | .red o p, w, h => by
    simp only [LFactor.Toks] at h
    exact cat_flat (fun u hu => op_flat (logTy_flat o) hu) (LPrim.flat p) h
theorem LTerm.flat : ∀ (f : LTerm) (w : List VTok), f.Toks w → Flat S2 w
  | .one f, w, h => LFactor.flat f w (by simpa only [LTerm.Toks] using h)
  | .mul t o f, w, h => by
    simp only [LTerm.Toks] at h
    exact cat_flat (LTerm.flat t) (fun u => cat_flat (fun u hu => op_flat (mulTy_flat o) hu) (LFactor.flat f)) h
theorem LSimple.flat : ∀ (f : LSimple) (w : List VTok), f.Toks w → Flat S2 w
  | .one f, w, h => LTerm.flat f w (by simpa only [LSimple.Toks] using h)
  | .signed o t, w, h => by
    simp only [LSimple.Toks] at h
    exact cat_flat (fun u hu => op_flat (signTy_flat o) hu) (LTerm.flat t) h
  | .add t o f, w, h => by
    simp only [LSimple.Toks] at h
    exact cat_flat (LSimple.flat t) (fun u => cat_flat (fun u hu => op_flat (addTy_flat o) hu) (LTerm.flat f)) h
theorem LShift.flat : ∀ (f : LShift) (w : List VTok), f.Toks w → Flat S2 w
  | .one f, w, h => LSimple.flat f w (by simpa only [LShift.Toks] using h)
  | .shift t o f, w, h => by
    simp only [LShift.Toks] at h
    exact cat_flat (LSimple.flat t) (fun u => cat_flat (fun u hu => op_flat (shiftTy_flat o) hu) (LSimple.flat f)) h
theorem LRel.flat : ∀ (f : LRel) (w : List VTok), f.Toks w → Flat S2 w
  | .one f, w, h => LShift.flat f w (by simpa only [LRel.Toks] using h)
  | .rel t o f, w, h => by
    simp only [LRel.Toks] at h
    exact cat_flat (LShift.flat t) (fun u => cat_flat (fun u hu => op_flat (relTy_flat o) hu) (LShift.flat f)) h
theorem LExpr.flat : ∀ (f : LExpr) (w : List VTok), f.Toks w → Flat S2 w
  | .one f, w, h => LRel.flat f w (by simpa only [LExpr.Toks] using h)
  | .cond p, w, h => by
    simp only [LExpr.Toks] at h
    exact cat_flat (fun u hu => one_flat rfl rfl (by decide) rfl hu) (LPrim.flat p) h
  | .logic t o f, w, h => by
    simp only [LExpr.Toks] at h
    exact cat_flat (LExpr.flat t) (fun u => cat_flat (fun u hu => op_flat (logTy_flat o) hu) (LRel.flat f)) h
end

/-! ## Where the names end -/

theorem LName.to : ∀ (n : LName) (w R : List VTok), n.Toks w → NameTo (w ++ R) R
  | .lit l, w, R, h => by
    obtain ⟨x, rfl, hx⟩ := h
    exact ⟨R, .lit (nameLit_tok_start hx).1 (nameLit_tok_start hx).2, .refl⟩
  | .sel n s, w, R, h => by
    simp only [LName.Toks] at h
    obtain ⟨u, _, rfl, hu, _, _, rfl, ⟨a, rfl, ha⟩, x, rfl, hx⟩ := h
    have := (LName.to n u (a :: x :: R) hu).trans (.one (.dot ha))
    simpa using this
  | .attr n d, w, R, h => by
    simp only [LName.Toks] at h
    obtain ⟨u, _, rfl, hu, _, _, rfl, ⟨a, rfl, ha⟩, x, rfl, hx⟩ := h
    have := (LName.to n u (a :: x :: R) hu).trans (.one (.attr ha (attrTok_desig hx)))
    simpa using this
  | .call n a l, w, R, h => by
    simp only [LName.Toks] at h
    obtain ⟨u, _, rfl, hu, _, _, rfl, ⟨o, rfl, ho⟩, wa, _, rfl, ha, wl, _, rfl, hl, c, rfl, hc⟩ := h
    have := (LName.to n u (o :: ((wa ++ wl) ++ c :: R)) hu).trans (.one (.grp (.inl ho) (by rw [hc]; rfl)
      ((LArg.bal a wa ha).append (args_bal l wl hl))))
    simpa using this
  | .slice n a d b, w, R, h => by
    simp only [LName.Toks] at h
    obtain ⟨u, _, rfl, hu, _, _, rfl, ⟨o, rfl, ho⟩, wa, _, rfl, ha, wd, _, rfl, hd, wb, _, rfl, hb, c, rfl, hc⟩ := h
    have hdb : Bal wd := by cases d <;> exact one_bal rfl rfl hd
    have := (LName.to n u (o :: ((wa ++ (wd ++ wb)) ++ c :: R)) hu).trans (.one (.grp (.inl ho) (by rw [hc]; rfl)
      ((LSimple.flat a wa ha).bal.append (hdb.append (LSimple.flat b wb hb).bal))))
    simpa using this

theorem LName.start {n : LName} {w : List VTok} (h : n.Toks w) : ∃ y s, w = y :: s ∧ nameStart y.ty = true := by
  have := (LName.to n w [] h).start
  simpa using this

/-- The expression is only a name. -/
def LPrim.bare : LPrim → Option LName
  | .name n => some n
  | _ => none
def LFactor.bare : LFactor → Option LName
  | .prim p => LPrim.bare p
  | _ => none
def LTerm.bare : LTerm → Option LName
  | .one f => LFactor.bare f
  | _ => none
def LSimple.bare : LSimple → Option LName
  | .one t => LTerm.bare t
  | _ => none
def LShift.bare : LShift → Option LName
  | .one t => LSimple.bare t
  | _ => none
def LRel.bare : LRel → Option LName
  | .one t => LShift.bare t
  | _ => none
def LExpr.bare : LExpr → Option LName
  | .one t => LRel.bare t
  | _ => none

/-- How an expression begins: with a name, with something in parentheses, or otherwise. -/
inductive Lead : Option LName → List VTok → Prop
  | bare {n : LName} {w : List VTok} (h : n.Toks w) : Lead (some n) w
  | other {y : VTok} {w : List VTok} (h1 : nameStart y.ty = false) (h2 : y.ty ≠ .LPAREN) (h3 : expStart y.ty = true) : Lead none (y :: w)
  | grp {o c : VTok} {u w : List VTok} (ho : o.ty = .LPAREN) (hc : isClose c.ty = true) (hu : Bal u)
      (hw : w = [] ∨ ∃ y s, w = y :: s ∧ opTok y.ty = true) : Lead none (o :: (u ++ c :: w))
  | more {n : LName} {w1 w2 : List VTok} {y : VTok} (h : n.Toks w1) (hy : opTok y.ty = true) : Lead none (w1 ++ y :: w2)
  | qual {n : LName} {w1 w2 : List VTok} {y z : VTok} (h : n.Toks w1) (hy : y.ty = .APOSTROPHE) (hz : z.ty = .LPAREN) :
      Lead none (w1 ++ y :: z :: w2)

theorem Lead.append {o : Option LName} {w : List VTok} (h : Lead o w) {y : VTok} (hy : opTok y.ty = true) (v : List VTok) :
    Lead none (w ++ y :: v) := by
  cases h with
  | bare h => exact .more h hy
  | other h1 h2 h3 => exact .other h1 h2 h3
  | grp ho hc hu hw =>
    rw [List.cons_append, List.append_assoc]
    refine .grp ho hc hu ?_
    right
    rcases hw with rfl | ⟨y', s, rfl, hy'⟩
    · exact ⟨y, v, rfl, hy⟩
    · exact ⟨y', _, rfl, hy'⟩
  | more h hy' => rw [List.append_assoc]; exact .more h hy'
  | qual h hy' hz => rw [List.append_assoc]; exact .qual h hy' hz

theorem Lead.start {o : Option LName} {w : List VTok} (h : Lead o w) : ∃ y s, w = y :: s ∧ expStart y.ty = true := by
  have nm : ∀ {n : LName} {w : List VTok}, n.Toks w → ∃ y s, w = y :: s ∧ expStart y.ty = true := by
    intro n w h
    obtain ⟨y, s, e, hy⟩ := LName.start h
    exact ⟨y, s, e, primStart_expStart (nameStart_primStart hy)⟩
  cases h with
  | bare h => exact nm h
  | other h1 h2 h3 => exact ⟨_, _, rfl, h3⟩
  | grp ho => exact ⟨_, _, rfl, by rw [ho]; rfl⟩
  | more h => obtain ⟨y, s, rfl, hy⟩ := nm h; exact ⟨y, _, rfl, hy⟩
  | qual h => obtain ⟨y, s, rfl, hy⟩ := nm h; exact ⟨y, _, rfl, hy⟩

theorem LPrim.lead {p : LPrim} {w : List VTok} (h : p.Toks w) : Lead (LPrim.bare p) w := by
  have tk : ∀ {t : VT} {s : Str} {w v : List VTok}, nameStart t = false → t ≠ .LPAREN → expStart t = true → OneT t s w →
      Lead none (w ++ v) := by
    rintro t s w v h1 h2 h3 ⟨x, rfl, hx, -⟩
    exact .other (by rw [hx]; exact h1) (by rw [hx]; exact h2) (by rw [hx]; exact h3)
  cases p with
  | name n => exact .bare (by simpa only [LPrim.Toks] using h)
  | dec t => simp only [LPrim.Toks] at h; have := tk (v := []) rfl (by decide) rfl h; rw [List.append_nil] at this; exact this
  | based t => simp only [LPrim.Toks] at h; have := tk (v := []) rfl (by decide) rfl h; rw [List.append_nil] at this; exact this
  | bits t => simp only [LPrim.Toks] at h; have := tk (v := []) rfl (by decide) rfl h; rw [List.append_nil] at this; exact this
  | decUnit t u =>
    simp only [LPrim.Toks] at h
    obtain ⟨u, v, rfl, hu, -⟩ := h
    exact tk rfl (by decide) rfl hu
  | basedUnit t u =>
    simp only [LPrim.Toks] at h
    obtain ⟨u, v, rfl, hu, -⟩ := h
    exact tk rfl (by decide) rfl hu
  | null =>
    simp only [LPrim.Toks] at h
    obtain ⟨x, rfl, hx⟩ := h
    exact .other (by rw [hx]; rfl) (by rw [hx]; decide) (by rw [hx]; rfl)
  | group e l =>
    simp only [LPrim.Toks] at h
    obtain ⟨_, _, rfl, ⟨o, rfl, ho⟩, wa, _, rfl, ha, wl, _, rfl, hl, c, rfl, hc⟩ := h
    have : [o] ++ (wa ++ (wl ++ [c])) = o :: ((wa ++ wl) ++ c :: []) := by simp
    rw [this]
    exact .grp ho (by rw [hc]; rfl) ((LElem.bal e wa ha).append (elems_bal l wl hl)) (.inl rfl)
  | qual n e l =>
    simp only [LPrim.Toks] at h
    obtain ⟨u, _, rfl, hu, _, _, rfl, ⟨a, rfl, ha⟩, _, _, rfl, ⟨o, rfl, ho⟩, -⟩ := h
    exact .qual hu ha ho

theorem LFactor.lead {f : LFactor} {w : List VTok} (h : f.Toks w) : Lead (LFactor.bare f) w := by
  cases f with
  | prim p => exact LPrim.lead (by simpa only [LFactor.Toks] using h)
  | pow a b =>
    simp only [LFactor.Toks] at h
    obtain ⟨u, _, rfl, hu, _, v, rfl, ⟨x, rfl, hx⟩, -⟩ := h
    exact (LPrim.lead hu).append (by rw [hx]; rfl) v
  | abs p =>
    simp only [LFactor.Toks] at h
    obtain ⟨_, v, rfl, ⟨x, rfl, hx⟩, -⟩ := h
    exact .other (by rw [hx]; rfl) (by rw [hx]; decide) (by rw [hx]; rfl)
  | not p =>
    simp only [LFactor.Toks] at h
    obtain ⟨_, v, rfl, ⟨x, rfl, hx⟩, -⟩ := h
    exact .other (by rw [hx]; rfl) (by rw [hx]; decide) (by rw [hx]; rfl)
  | red o p =>
    simp only [LFactor.Toks] at h
    obtain ⟨_, v, rfl, ⟨x, rfl, hx⟩, -⟩ := h
    exact .other (by rw [hx]; cases o <;> rfl) (by rw [hx]; cases o <;> decide) (by rw [hx]; cases o <;> rfl)

theorem LTerm.lead : ∀ (t : LTerm) {w : List VTok}, t.Toks w → Lead (LTerm.bare t) w
  | .one f, w, h => LFactor.lead (by simpa only [LTerm.Toks] using h)
  | .mul t o f, w, h => by
    simp only [LTerm.Toks] at h
    obtain ⟨u, _, rfl, hu, _, v, rfl, ⟨x, rfl, hx⟩, -⟩ := h
    exact (LTerm.lead t hu).append (by rw [hx]; cases o <;> rfl) v

theorem LSimple.lead : ∀ (t : LSimple) {w : List VTok}, t.Toks w → Lead (LSimple.bare t) w
  | .one f, w, h => LTerm.lead f (by simpa only [LSimple.Toks] using h)
  | .signed o t, w, h => by
    simp only [LSimple.Toks] at h
    obtain ⟨_, v, rfl, ⟨x, rfl, hx⟩, -⟩ := h
    exact .other (by rw [hx]; cases o <;> rfl) (by rw [hx]; cases o <;> decide) (by rw [hx]; cases o <;> rfl)
  | .add t o f, w, h => by
    simp only [LSimple.Toks] at h
    obtain ⟨u, _, rfl, hu, _, v, rfl, ⟨x, rfl, hx⟩, -⟩ := h
    exact (LSimple.lead t hu).append (by rw [hx]; cases o <;> rfl) v

theorem LShift.lead {t : LShift} {w : List VTok} (h : t.Toks w) : Lead (LShift.bare t) w := by
  cases t with
  | one s => exact LSimple.lead s (by simpa only [LShift.Toks] using h)
  | shift a o b =>
    simp only [LShift.Toks] at h
    obtain ⟨u, _, rfl, hu, _, v, rfl, ⟨x, rfl, hx⟩, -⟩ := h
    exact (LSimple.lead a hu).append (by rw [hx]; cases o <;> rfl) v

theorem LRel.lead {t : LRel} {w : List VTok} (h : t.Toks w) : Lead (LRel.bare t) w := by
  cases t with
  | one s => exact LShift.lead (by simpa only [LRel.Toks] using h)
  | rel a o b =>
    simp only [LRel.Toks] at h
    obtain ⟨u, _, rfl, hu, _, v, rfl, ⟨x, rfl, hx⟩, -⟩ := h
    exact (LShift.lead hu).append (by rw [hx]; cases o <;> rfl) v

theorem LExpr.lead : ∀ (t : LExpr) {w : List VTok}, t.Toks w → Lead (LExpr.bare t) w
  | .one f, w, h => LRel.lead (by simpa only [LExpr.Toks] using h)
  | .cond p, w, h => by
    simp only [LExpr.Toks] at h
    obtain ⟨_, v, rfl, ⟨x, rfl, hx⟩, -⟩ := h
    exact .other (by rw [hx]; rfl) (by rw [hx]; decide) (by rw [hx]; rfl)
  | .logic t o f, w, h => by
    simp only [LExpr.Toks] at h
    obtain ⟨u, _, rfl, hu, _, v, rfl, ⟨x, rfl, hx⟩, -⟩ := h
    exact (LExpr.lead t hu).append (by rw [hx]; cases o <;> rfl) v

/-! ## Parses of parts of an expression -/

/-- The next token is in the middle of an expression. -/
def Mid (r : List VTok) : Prop := ∃ y s, r = y :: s ∧ (partStart y.ty = true ∨ opTok y.ty = true)

/-- The token behind an expression in brackets. -/
def Closes (r : List VTok) : Prop :=
  ∃ y s, r = y :: s ∧ nameStart y.ty = false ∧ partStart y.ty = false ∧ opTok y.ty = false ∧ y.ty ≠ .kw .RANGE

theorem opTok_facts {t : VT} (h : opTok t = true) : nameStart t = false ∧ partStart t = false ∧ t ≠ .kw .RANGE := by
  unfold opTok at h
  split at h <;> first | exact ⟨rfl, rfl, by decide⟩ | cases h

theorem Closes.stuck {r : List VTok} (h : Closes r) : Stuck r := by
  obtain ⟨y, s, rfl, -, h, -⟩ := h
  exact stuck_of_next (by intro t ht; cases ht; exact h)

theorem op_stuck {y : VTok} {s : List VTok} (h : opTok y.ty = true) : Stuck (y :: s) :=
  stuck_of_next (by intro t ht; cases ht; exact (opTok_facts h).2.1)

theorem qual_stuck {y z : VTok} {s : List VTok} (hy : y.ty = .APOSTROPHE) (hz : z.ty = .LPAREN) : Stuck (y :: z :: s) := by
  intro r hr
  generalize ha : y :: z :: s = a at hr
  cases hr with
  | grp ho => have := (List.cons.inj ha).1; subst this; rw [hy] at ho; simp at ho
  | dot hd => have := (List.cons.inj ha).1; subst this; rw [hy] at hd; simp at hd
  | attr _ hx => have := (List.cons.inj (List.cons.inj ha).2).1; subst this; rw [hz] at hx; cases hx

/-- Where names in the beginning of an expression end. -/
theorem Lead.name {o : Option LName} {w R r : List VTok} (h : Lead o w) (hR : Closes R) (hr : NameTo (w ++ R) r) :
    Mid r ∨ (r = R ∧ o.isSome = true) := by
  cases h with
  | bare h =>
    rcases hr.last (LName.to _ w R h) hR.stuck with rfl | ⟨y, s, rfl, hy⟩
    · exact .inr ⟨rfl, rfl⟩
    · exact .inl ⟨y, s, rfl, .inl hy⟩
  | other h1 =>
    obtain ⟨y, s, e, hy⟩ := hr.start
    cases e; rw [h1] at hy; cases hy
  | grp ho =>
    obtain ⟨y, s, e, hy⟩ := hr.start
    cases e; rw [ho] at hy; cases hy
  | more h hy =>
    rw [List.append_assoc] at hr
    rcases hr.last (LName.to _ _ _ h) (op_stuck hy) with rfl | ⟨y, s, rfl, hy⟩
    · exact .inl ⟨_, _, rfl, .inr hy⟩
    · exact .inl ⟨y, s, rfl, .inl hy⟩
  | qual h hy hz =>
    rw [List.append_assoc] at hr
    rcases hr.last (LName.to _ _ _ h) (qual_stuck hy hz) with rfl | ⟨y, s, rfl, hy⟩
    · exact .inl ⟨_, _, rfl, .inl (by rw [hy]; rfl)⟩
    · exact .inl ⟨y, s, rfl, .inl hy⟩

theorem Mid.noName {r s : List VTok} (h : Mid r) (hn : NameTo r s) : False := by
  obtain ⟨y, s', rfl, hy⟩ := h
  obtain ⟨y', s'', e, hy'⟩ := hn.start
  cases e
  rcases hy with hy | hy
  · unfold partStart at hy; unfold nameStart at hy'; split at hy <;> simp_all
  · rw [(opTok_facts hy).1] at hy'; cases hy'

theorem Closes.noName {r s : List VTok} (h : Closes r) (hn : NameTo r s) : False := by
  obtain ⟨y, s', rfl, hy, -⟩ := h
  obtain ⟨y', s'', e, hy'⟩ := hn.start
  cases e
  rw [hy] at hy'; cases hy'

theorem Mid.noRange {r : List VTok} (h : Mid r) : next r ≠ some (.kw .RANGE) := by
  obtain ⟨y, s', rfl, hy⟩ := h
  intro hn
  simp only [next_cons, Option.some.injEq] at hn
  rcases hy with hy | hy
  · rw [hn] at hy; cases hy
  · exact (opTok_facts hy).2.2 hn

/-- Where subtypes in the beginning of an expression end. -/
theorem Lead.subInd {o : Option LName} {w R : List VTok} (h : Lead o w) (hR : Closes R) {n : Nat} {x : SubInd × List VTok}
    (hx : x ∈ (env n).subInd (w ++ R)) : Mid x.2 ∨ (x.2 = R ∧ o.isSome = true) := by
  obtain ⟨m, r, hm, hr, hp⟩ := subInd_env hx
  rcases hm with rfl | hm | ⟨o', u', c', e, ho', hc', hu'⟩
  · rcases hp with hp | hp
    · exact h.name hR (hr.trans hp)
    · rcases h.name hR hr with h | ⟨rfl, -⟩
      · exact absurd hp h.noRange
      · obtain ⟨y, s, rfl, -, -, -, h⟩ := hR
        simp only [next_cons, Option.some.injEq] at hp
        exact absurd hp h
  · rcases h.name hR hm with h | ⟨rfl, -⟩
    · exact (h.noName hr).elim
    · exact (hR.noName hr).elim
  · exfalso
    cases h with
    | bare h =>
      obtain ⟨y, s, rfl, hy⟩ := LName.start h
      have e := (List.cons.inj e).1; subst e; rw [ho'] at hy; cases hy
    | other h1 h2 => have e := (List.cons.inj e).1; subst e; exact h2 ho'
    | grp ho hc hu hw =>
      rw [List.cons_append, List.append_assoc] at e
      obtain ⟨-, -, rfl⟩ := hu'.unique hu hc' hc (List.cons.inj e).2.symm
      rcases hw with rfl | ⟨y, s, rfl, hy⟩
      · exact hR.noName hr
      · exact Mid.noName ⟨_, _, rfl, .inr hy⟩ hr
    | more h =>
      obtain ⟨y, s, rfl, hy⟩ := LName.start h
      have e := (List.cons.inj e).1; subst e; rw [ho'] at hy; cases hy
    | qual h =>
      obtain ⟨y, s, rfl, hy⟩ := LName.start h
      have e := (List.cons.inj e).1; subst e; rw [ho'] at hy; cases hy

end Verif.Vhdl
