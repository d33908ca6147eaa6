import Verif.SvStmRead
/-!
# The parse of simple SystemVerilog statements
-/
namespace Verif.Spec.SvLrm
open Verif.Sv

/-! ## Texts which the visitors convert -/

def SDelay.Ok : SDelay → Prop
  | .num _ => True
  | .real _ => True
  | .name i => okIdent i
  | .paren e => e.Ok

def SEvent.Ok : SEvent → Prop
  | .star => True
  | .starParen => True
  | .name p => p.Ok
  | .list e l => e.2.Ok ∧ ∀ x ∈ l, x.2.Ok

def STiming.Ok : STiming → Prop
  | .delay d => d.Ok
  | .event e => e.Ok

def SInit.Ok : SInit → Prop
  | .none => True
  | .assign a l => (a.1.Ok ∧ a.2.Ok) ∧ ∀ x ∈ l, x.1.Ok ∧ x.2.Ok
  | .decl _ a l => (okIdent a.1 ∧ a.2.Ok) ∧ ∀ x ∈ l, okIdent x.1 ∧ x.2.Ok

def SStep.Ok : SStep → Prop
  | .assign l _ e => l.Ok ∧ e.Ok
  | .incDec _ _ l => l.Ok

def optOk : Option SExp → Prop
  | none => True
  | some e => e.Ok

def SStm.isIf : SStm → Bool
  | .ite _ _ => true
  | .iteElse _ _ _ => true
  | _ => false

/-- A `fork`, or a block with a name. -/
def SStm.named : SStm → Bool
  | .fork _ _ _ _ => true
  | .block (some _) _ _ => true
  | _ => false

/-- A block. -/
def SStm.isBlock : SStm → Bool
  | .fork _ _ _ _ => true
  | .block _ _ _ => true
  | _ => false

/-- A `fork`, with or without a label. -/
def SStm.isFork : SStm → Bool
  | .fork _ _ _ _ => true
  | .label _ s => s.isFork
  | _ => false

/-- A statement after a delay or an event control. -/
def SStm.isTiming : SStm → Bool
  | .timing _ _ => true
  | _ => false

/-- An `if` with a label. -/
def SStm.labIf : SStm → Bool
  | .label _ s => s.isIf
  | _ => false

/-- A `fork`, or a block with a name or a label. -/
def SStm.labBlock : SStm → Bool
  | .label _ s => s.isBlock
  | s => s.named

def SCase.isDflt : SCase → Bool
  | .dflt _ _ => true
  | .exprs _ _ _ => false

mutual
/-- What the visitors convert: all expressions do; not more than one `default`; no `if` with a label as `else` branch; no `fork` and no block
with a label directly after a delay; no escaped identifier as label; no label at the end of a block without a label at its beginning. -/
def SStm.Ok : SStm → Prop
  | .null => True
  | .assign l _ e => l.Ok ∧ e.Ok
  | .timed l t e => l.Ok ∧ t.Ok ∧ e.Ok
  | .nonblocking l none e => l.Ok ∧ e.Ok
  | .nonblocking l (some t) e => l.Ok ∧ t.Ok ∧ e.Ok
  | .incDec _ _ l => l.Ok
  | .call p => p.Ok
  | .voidCall e => e.Ok
  | .case _ _ e c l => e.Ok ∧ c.Ok ∧ casesOk l ∧ ((c :: l).filter SCase.isDflt).length ≤ 1
  | .ite c t => c.Ok ∧ t.Ok
  | .iteElse c t f => c.Ok ∧ t.Ok ∧ f.Ok ∧ f.labIf = false
  | .forever b => b.Ok
  | .repeat_ e b => e.Ok ∧ b.Ok
  | .while_ e b => e.Ok ∧ b.Ok
  | .doWhile b e => b.Ok ∧ e.Ok
  | .for_ i c s b => i.Ok ∧ optOk c ∧ (∀ x ∈ s, x.Ok) ∧ b.Ok
  | .ret e => optOk e
  | .break_ => True
  | .continue_ => True
  | .block n l e => okBlockLabel n e ∧ stmsOk l
  | .fork n l _ e => okBlockLabel n e ∧ stmsOk l
  | .timing (.delay d) b => d.Ok ∧ b.Ok ∧ b.labBlock = false
  | .timing (.event e) b => e.Ok ∧ b.Ok
  | .label i s => (i.esc = false ∧ isKw i.text = false) ∧ s.Ok
def stmsOk : List SStm → Prop
  | [] => True
  | s :: l => s.Ok ∧ stmsOk l
def SCase.Ok : SCase → Prop
  | .exprs e l s => e.Ok ∧ expsOk l ∧ s.Ok
  | .dflt _ s => s.Ok
def casesOk : List SCase → Prop
  | [] => True
  | c :: l => c.Ok ∧ casesOk l
end

end Verif.Spec.SvLrm

namespace Verif.Sv
open P Verif.Spec.SvLrm Verif.Spec.Sv

variable {V S : Type} {A : Alg V} {Bs : SAlg V S} {B : Rules}

theorem exp_ne {e : SExp} {w : List STok} (h : e.Toks w) {t : ST} (ht : eNo t = true) (R : List STok) : ∀ y s, w ++ R = y :: s → y.ty ≠ t := by
  obtain ⟨y, s, rfl, h1, -⟩ := exp_begins e w h
  intro _ _ e; cases e; rintro rfl; rw [ht] at h1; cases h1
theorem exp_no {α : Type} {p : P α} (hp : NoAt (fun t => !eNo t) p) {e : SExp} {w : List STok} (h : e.Toks w) (R : List STok) : p (w ++ R) = [] := by
  obtain ⟨y, s, rfl, h1, -⟩ := exp_begins e w h
  exact hp.cons (by simp [h1])

/-! ## Delays -/

variable (A) in
structure MDl (t : DelayCtl) (d : SDelay) : Prop where
  ev : evDelayCtl A t = d.eval A
  ok : d.Ok → okDelayCtl t

theorem realNumber_first {x : STok} (h : x.ty = .REAL_NUMBER_WITH_EXP ∨ x.ty = .FIXED_POINT_NUMBER) (R : List STok) :
    First None' realNumber (x :: R) x.text R := by
  refine First.of_eq ?_
  rcases h with h | h <;> simp [realNumber, texts, alts_apply, tok_cons, h]

theorem packageScope_nil {i : Ident} {x : STok} (hx : Ident.Tok i x) {R : List STok} (hR : ∀ y s, R = y :: s → y.ty ≠ .DOUBLE_COLON) :
    packageScope (x :: R) = [] := by
  refine List.eq_nil_iff_forall_not_mem.2 fun z hz => ?_
  obtain ⟨a, r, h1, h2⟩ := mem_bind.1 hz
  have : r = R := by
    rcases mem_or.1 h1 with h1 | h1
    · rw [bind_nil (tok_neg (ident_ne hx rfl) R)] at h1; cases h1
    · obtain ⟨b, r', h3, h4⟩ := mem_bind.1 h1
      rw [mem_pure] at h4; cases h4
      rcases mem_or.1 h3 with h3 | h3
      · obtain ⟨b, r', h3, h4⟩ := mem_bind.1 h3
        rw [mem_pure] at h4; cases h4
        obtain ⟨_, e, -, -⟩ := mem_tok.1 h3; cases e; rfl
      rcases mem_or.1 h3 with h3 | h3
      · obtain ⟨b, r', h3, h4⟩ := mem_bind.1 h3
        rw [mem_pure] at h4; cases h4
        obtain ⟨_, e, -, -⟩ := mem_tok.1 h3; cases e; rfl
      rcases mem_or.1 h3 with h3 | h3
      · obtain ⟨b, r', h3, h4⟩ := mem_bind.1 h3
        rw [mem_pure] at h4; cases h4
        obtain ⟨_, e, -, -⟩ := mem_tok.1 h3; cases e; rfl
      · obtain ⟨b, r', h3, h4⟩ := mem_bind.1 h3
        rw [mem_pure] at h4; cases h4
        obtain ⟨p, h5, h6⟩ := mem_alts.1 h3
        obtain ⟨t, -, rfl⟩ := List.mem_map.1 h5
        obtain ⟨_, e, -, -⟩ := mem_tok.1 h6; cases e; rfl
  subst this
  rw [bind_nil (tok_ne hR)] at h2; cases h2

theorem psIdentifier_first {i : Ident} {x : STok} (hx : Ident.Tok i x) {R : List STok} (hR : ∀ y s, R = y :: s → y.ty ≠ .DOUBLE_COLON) :
    First None' psIdentifier (x :: R) (none, i) R := by
  refine First.bindH (First.noneE (packageScope_nil hx hR)) ?_
  exact First.map (f := fun i => ((none : Option PkgScope), i)) (identifier_first hx R)

theorem delayValue_name {E : Env} {i : Ident} {x : STok} (hx : Ident.Tok i x) {R : List STok} (hR : ∀ y s, R = y :: s → y.ty ≠ .DOUBLE_COLON) :
    First None' (delayValue E) (x :: R) (.ps none i) R := by
  have h1 : x.ty ≠ .UNSIGNED_NUMBER := ident_ne hx rfl
  have h2 : x.ty ≠ .TIME_LITERAL := ident_ne hx rfl
  have h3 : x.ty ≠ .KW_1STEP := ident_ne hx rfl
  have h4 : realNumber (x :: R) = [] := (show NoAt isIdTok realNumber from NoAt.texts (by simp [isIdTok])).cons (ident_id hx)
  refine First.orN (bind_nil (tok_neg h1 _)) (First.orN (bind_nil (tok_neg h2 _)) (First.orN (bind_nil (tok_neg h3 _)) (First.orN (bind_nil h4) (First.orL ?_))))
  exact First.map (f := fun x => DelayVal.ps x.1 x.2) (psIdentifier_first hx hR)

theorem delay_first {d : SDelay} {w : List STok} (h : d.Toks w) {M : Nat} (hM : w.length ≤ M) {R : List STok}
    (hR : ∀ y s, R = y :: s → y.ty ≠ .DOUBLE_COLON) : ∃ t, MDl A t d ∧ First None' (delayControl (env B M)) (w ++ R) t R := by
  cases d with
  | num t =>
    obtain ⟨_, _, rfl, ⟨x, rfl, hx⟩, ⟨y, rfl, hy, rfl⟩⟩ := h
    exact ⟨.value (.num y.text), ⟨rfl, fun _ => trivial⟩, First.bindH (First.tok hx _) (First.orN (bind_nil (tok_neg (by rw [hy]; decide) _))
      (First.map (f := DelayCtl.value) (First.orL (First.map (f := DelayVal.num) (First.tok hy R)))))⟩
  | real t =>
    obtain ⟨_, _, rfl, ⟨x, rfl, hx⟩, ⟨y, rfl, hy, rfl⟩⟩ := h
    have hn : ∀ {t : ST}, t ≠ .REAL_NUMBER_WITH_EXP → t ≠ .FIXED_POINT_NUMBER → y.ty ≠ t := by
      intro t h1 h2 h; subst h; rcases hy with hy | hy
      · exact h1 hy
      · exact h2 hy
    exact ⟨.value (.real y.text), ⟨rfl, fun _ => trivial⟩, First.bindH (First.tok hx _) (First.orN (bind_nil (tok_neg (hn (by decide) (by decide)) _))
      (First.map (f := DelayCtl.value) (First.orN (bind_nil (tok_neg (hn (by decide) (by decide)) _))
        (First.orN (bind_nil (tok_neg (hn (by decide) (by decide)) _)) (First.orN (bind_nil (tok_neg (hn (by decide) (by decide)) _))
        (First.orL (First.map (f := DelayVal.real) (realNumber_first hy R))))))))⟩
  | name i =>
    obtain ⟨_, _, rfl, ⟨x, rfl, hx⟩, ⟨y, rfl, hy⟩⟩ := h
    exact ⟨.value (.ps none i), ⟨rfl, fun h => h⟩, First.bindH (First.tok hx _) (First.orN (bind_nil (tok_neg (ident_ne hy rfl) _))
      (First.map (f := DelayCtl.value) (delayValue_name hy hR)))⟩
  | paren e =>
    obtain ⟨_, _, rfl, ⟨x, rfl, hx⟩, _, _, rfl, ⟨y, rfl, hy⟩, u, _, rfl, hu, ⟨z, rfl, hz⟩⟩ := h
    simp only [List.length_append, List.length_cons, List.length_nil] at hM
    obtain ⟨t, ht, ft⟩ := exp_first (A := A) (B := B) hu (M := M) (by omega) (R := z :: R) (.of hz _ rfl rfl)
    refine ⟨.mtm (.one t), ⟨?_, ?_⟩, ?_⟩
    · rw [evDelayCtl, evMTM, ht.ev]; rfl
    · intro h; exact ht.ok h
    · simp only [List.append_assoc]
      exact First.bindH (First.tok hx _) (First.orL (First.bindH (First.tok hy _) (First.bindH (First.bindH ft (First.bindH (First.noneE
        (bind_nil (tok_neg (by rw [hz]; decide) _))) (First.ret _ _))) (First.bindH (First.tok hz _) (First.ret _ _)))))

/-! ## Events -/

variable (A) in
structure MEv (t : EventCtl) (e : SEvent) : Prop where
  ev : evEventCtl A t = e.eval A
  ok : e.Ok → okEventCtl t
variable (A) in
structure MEi (t : EventItem) (e : SEdge × SExp) : Prop where
  ev : evEventItem A t = [entryEval A e]
  ok : e.2.Ok → okEventItem t

/-- Behind an entry of an event control. -/
def EvEnd (R : List STok) : Prop := Sep R ∧ ∀ y s, R = y :: s → y.ty ≠ .KW_IFF
theorem EvEnd.of {y : STok} {t : ST} (hy : y.ty = t) (s : List STok) (h : pCont t = false ∧ opPrec t = 0 ∧ t ≠ .KW_IFF) : EvEnd (y :: s) :=
  ⟨.of hy s h.1 h.2.1, fun _ _ e => (by cases e; rw [hy]; exact h.2.2)⟩

theorem entry_first {M : Nat} (ev : P (List EventItem)) (e : SEdge × SExp) (w R : List STok) (h : entryToks e w) (hM : w.length < M) (hR : EvEnd R) :
    ∃ t, MEi A t e ∧ First None' (eventItemT (env B M) ev) (w ++ R) t R := by
  obtain ⟨g, e⟩ := e
  cases g with
  | change =>
    obtain ⟨h, hp⟩ := h
    obtain ⟨t, ht, ft⟩ := exp_first (A := A) (B := B) h (M := M) hM hR.1
    refine ⟨.ev none t none, ⟨?_, ?_⟩, ?_⟩
    · rw [evEventItem, ht.ev]; rfl
    · intro h; exact ⟨by simp, rfl, ht.ok h⟩
    · refine First.orN (bind_nil (tok_ne ?_)) (First.bindH (First.noneE ?_) (First.bindH ft (First.bindH (First.noneE (bind_nil (tok_ne hR.2))) (First.ret _ _))))
      · obtain ⟨y, s, rfl, -, -⟩ := exp_begins e w h
        intro y' s' e; cases e; exact hp y s rfl
      · exact exp_no (p := edgeIdentifier) (.toks (by decide)) h R
  | pos =>
    obtain ⟨_, u, rfl, ⟨x, rfl, hx⟩, hu⟩ := h
    simp only [List.length_append, List.length_cons, List.length_nil] at hM
    obtain ⟨t, ht, ft⟩ := exp_first (A := A) (B := B) hu (M := M) (by omega) hR.1
    refine ⟨.ev (some .posedge) t none, ⟨?_, ?_⟩, ?_⟩
    · rw [evEventItem, ht.ev]; rfl
    · intro h; exact ⟨by simp, rfl, ht.ok h⟩
    · rw [List.append_assoc]
      refine First.orN (bind_nil (tok_neg (by rw [hx]; decide) _)) (First.bindH (First.some (First.of_eq (toks_one (a := .posedge) ?_ _)))
        (First.bindH ft (First.bindH (First.noneE (bind_nil (tok_ne hR.2))) (First.ret _ _))))
      rw [hx]; rfl
  | neg =>
    obtain ⟨_, u, rfl, ⟨x, rfl, hx⟩, hu⟩ := h
    simp only [List.length_append, List.length_cons, List.length_nil] at hM
    obtain ⟨t, ht, ft⟩ := exp_first (A := A) (B := B) hu (M := M) (by omega) hR.1
    refine ⟨.ev (some .negedge) t none, ⟨?_, ?_⟩, ?_⟩
    · rw [evEventItem, ht.ev]; rfl
    · intro h; exact ⟨by simp, rfl, ht.ok h⟩
    · rw [List.append_assoc]
      refine First.orN (bind_nil (tok_neg (by rw [hx]; decide) _)) (First.bindH (First.some (First.of_eq (toks_one (a := .negedge) ?_ _)))
        (First.bindH ft (First.bindH (First.noneE (bind_nil (tok_ne hR.2))) (First.ret _ _))))
      rw [hx]; rfl

theorem entries_ev {ts : List EventItem} {l : List (SEdge × SExp)} (h : All2 (MEi A) ts l) : evEventItems A ts = l.map (entryEval A) := by
  induction h with
  | nil => rw [evEventItems]; rfl
  | cons h _ ih => rw [evEventItems, h.ev, ih]; rfl
theorem entries_ok {ts : List EventItem} {l : List (SEdge × SExp)} (h : All2 (MEi A) ts l) (ho : ∀ x ∈ l, x.2.Ok) : okEventItems ts := by
  induction h with
  | nil => trivial
  | cons h _ ih => exact ⟨h.ok (ho _ (by simp)), ih fun x hx => ho x (by simp [hx])⟩

theorem orComma_first (z R : List STok) (h : OneP (fun x => x.ty = .KW_OR ∨ x.ty = .COMMA) z) : ∃ c, First None' (texts [.KW_OR, .COMMA]) (z ++ R) c R := by
  obtain ⟨x, rfl, h⟩ := h
  refine ⟨x.text, First.of_eq ?_⟩
  rcases h with h | h <;> simp [texts, alts_apply, tok_cons, h]

theorem entry_ne (e : SEdge × SExp) (w : List STok) (h : entryToks e w) (R : List STok) : ∀ y s, w ++ R = y :: s → y.ty ≠ .MUL := by
  obtain ⟨g, e⟩ := e
  cases g with
  | change => exact exp_ne h.1 rfl R
  | pos => obtain ⟨_, u, rfl, ⟨x, rfl, hx⟩, hu⟩ := h; intro _ _ e; cases e; rw [hx]; decide
  | neg => obtain ⟨_, u, rfl, ⟨x, rfl, hx⟩, hu⟩ := h; intro _ _ e; cases e; rw [hx]; decide

/-- What can follow a timing control: `@ name` must not go on. -/
def TEnd (isName : Bool) (R : List STok) : Prop :=
  (∀ y s, R = y :: s → y.ty ≠ .DOUBLE_COLON) ∧ (isName = true → LvEnd R)

theorem event_first {e : SEvent} {w : List STok} (h : e.Toks w) {M : Nat} (hM : w.length ≤ M) {R : List STok} (hR : TEnd (STiming.event e).isName R) :
    ∃ t, MEv A t e ∧ First None' (eventControl (env B M)) (w ++ R) t R := by
  cases e with
  | star =>
    obtain ⟨_, _, rfl, ⟨x, rfl, hx⟩, ⟨y, rfl, hy⟩⟩ := h
    exact ⟨.star, ⟨rfl, fun _ => trivial⟩, First.bindH (First.tok hx _) (First.orN (bind_nil (tok_neg (by rw [hy]; decide) _))
      (First.orL (First.bindH (First.tok hy R) (First.ret _ _))))⟩
  | starParen =>
    obtain ⟨_, _, rfl, ⟨x, rfl, hx⟩, _, _, rfl, ⟨y, rfl, hy⟩, _, _, rfl, ⟨z, rfl, hz⟩, ⟨q, rfl, hq⟩⟩ := h
    exact ⟨.star, ⟨rfl, fun _ => trivial⟩, First.bindH (First.tok hx _) (First.orL (First.bindH (First.tok hy _) (First.bindH
      (First.orL (First.bindH (First.tok hz _) (First.ret _ _))) (First.bindH (First.tok hq R) (First.ret _ _)))))⟩
  | name p =>
    obtain ⟨hp, _, u, rfl, ⟨x, rfl, hx⟩, hu⟩ := h
    simp only [List.length_append, List.length_cons, List.length_nil] at hM
    obtain ⟨t, ht, ft⟩ := elem_first (A := A) (B := B) hp hu (M := M) (by omega) (hR.2 rfl)
    refine ⟨.id t, ⟨?_, fun h => ht.ok h⟩, First.bindH (First.tok hx _) (First.orN (bind_nil ?_) (First.orN (bind_nil ?_) (First.map (f := EventCtl.id) ft)))⟩
    · rw [evEventCtl, ht.ev]; rfl
    all_goals
      obtain ⟨i, y, s, rfl, hy⟩ := elem_head hp hu
      exact tok_neg (ident_ne hy rfl) _
  | list e l =>
    obtain ⟨_, _, rfl, ⟨x, rfl, hx⟩, _, _, rfl, ⟨y, rfl, hy⟩, u, _, rfl, hu, v, _, rfl, hv, ⟨q, rfl, hq⟩⟩ := h
    simp only [List.length_append, List.length_cons, List.length_nil] at hM
    have key : ∀ n, ∃ ts, All2 (MEi A) ts (e :: l) ∧ First None' (eventExprN (env B M) (n + 1)) (u ++ (v ++ q :: R)) ts (q :: R) := fun n =>
      sep_first (D := None') (M := MEi A) (N := M) (Rst := EvEnd) (s := texts [.KW_OR, .COMMA]) (T := entryToks)
        (sep := OneP fun x => x.ty = .KW_OR ∨ x.ty = .COMMA) (by rintro _ ⟨x, rfl, -⟩; simp) orComma_first
        (fun e u R h hu hR => entry_first (eventExprN (env B M) n) e u R h hu hR)
        (by
          rintro _ R ⟨x, rfl, h⟩
          rcases h with h | h <;> exact .of h _ ⟨rfl, rfl, by decide⟩)
        (fun r h => h.elim) e l u v (q :: R) hu hv (by simp; omega) (.of hq _ ⟨rfl, rfl, by decide⟩)
        ((NoAt.texts (N := fun t => t == .RPAREN) (by decide)).cons (by rw [hq]; rfl))
    obtain ⟨ts, hts, fts⟩ := key (u ++ (v ++ q :: R)).length
    refine ⟨.events ts, ⟨?_, ?_⟩, ?_⟩
    · rw [evEventCtl, entries_ev hts]; rfl
    · intro h
      refine entries_ok hts ?_
      intro x hx
      rcases List.mem_cons.1 hx with rfl | hx
      · exact h.1
      · exact h.2 x hx
    · simp only [List.append_assoc]
      refine First.bindH (First.tok hx _) (First.orL (First.bindH (First.tok hy _) (First.bindH (First.orN (bind_nil (tok_ne (entry_ne e u hu _))) 
        (First.map (f := EventCtl.events) (show First None' (eventExpr (env B M)) _ ts (q :: R) from fts))) (First.bindH (First.tok hq R) (First.ret _ _)))))

variable (A Bs) in
structure MDE (t : DelayOrEvent) (s : STiming) : Prop where
  ev : ∀ b l e, evTimedAssign A Bs b l e t = timedEval A Bs b l e s
  ok : s.Ok → okDelayOrEvent t
variable (A Bs) in
structure MT (t : TimingCtl) (s : STiming) : Prop where
  ev : ∀ u x (b : SStm), evStmN A Bs u = x → b.eval A Bs = x → evItem A Bs (.timing t u) = (SStm.timing s b).eval A Bs
  ok : ∀ u (b : SStm), (b.Ok → okStmN u) → labelledBlock u = b.labBlock → (SStm.timing s b).Ok → okItem (.timing t u)

theorem delayOrEvent_first {s : STiming} {w : List STok} (h : s.Toks w) {M : Nat} (hM : w.length ≤ M) {R : List STok} (hR : TEnd s.isName R) :
    ∃ t, MDE A Bs t s ∧ First None' (delayOrEvent (env B M)) (w ++ R) t R := by
  cases s with
  | delay d =>
    obtain ⟨t, ht, ft⟩ := delay_first (A := A) (B := B) h hM hR.1
    refine ⟨.delay t, ⟨?_, fun h => ht.ok h⟩, First.orL (First.map (f := DelayOrEvent.delay) ft)⟩
    intro b l e; rw [evTimedAssign, ht.ev]; rfl
  | event e =>
    obtain ⟨t, ht, ft⟩ := event_first (A := A) (B := B) h hM hR
    have hx : ∃ x s, w = x :: s ∧ x.ty = .AT := by
      rw [STiming.Toks] at h
      cases e with
      | star => obtain ⟨_, _, rfl, ⟨x, rfl, hx⟩, -⟩ := h; exact ⟨x, _, rfl, hx⟩
      | starParen => obtain ⟨_, _, rfl, ⟨x, rfl, hx⟩, -⟩ := h; exact ⟨x, _, rfl, hx⟩
      | name p => obtain ⟨-, _, _, rfl, ⟨x, rfl, hx⟩, -⟩ := h; exact ⟨x, _, rfl, hx⟩
      | list e l => obtain ⟨_, _, rfl, ⟨x, rfl, hx⟩, -⟩ := h; exact ⟨x, _, rfl, hx⟩
    obtain ⟨x, s, rfl, hx⟩ := hx
    refine ⟨.event none t, ⟨?_, fun h => ⟨rfl, ht.ok h⟩⟩, First.orN (bind_nil (bind_nil (tok_neg (by rw [hx]; decide) _)))
      (First.bindH (First.noneE (bind_nil (tok_neg (by rw [hx]; decide) _))) (First.map (f := DelayOrEvent.event none) ft))⟩
    intro b l e; rw [evTimedAssign, ht.ev]; rfl

theorem timing_head {s : STiming} {w : List STok} (h : s.Toks w) : ∃ x v, w = x :: v ∧ (x.ty = .AT ∨ x.ty = .HASH) := by
  rcases s with d | e
  · cases d with
    | num t => obtain ⟨_, _, rfl, ⟨x, rfl, hx⟩, -⟩ := h; exact ⟨x, _, rfl, .inr hx⟩
    | real t => obtain ⟨_, _, rfl, ⟨x, rfl, hx⟩, -⟩ := h; exact ⟨x, _, rfl, .inr hx⟩
    | name i => obtain ⟨_, _, rfl, ⟨x, rfl, hx⟩, -⟩ := h; exact ⟨x, _, rfl, .inr hx⟩
    | paren e => obtain ⟨_, _, rfl, ⟨x, rfl, hx⟩, -⟩ := h; exact ⟨x, _, rfl, .inr hx⟩
  · cases e with
    | star => obtain ⟨_, _, rfl, ⟨x, rfl, hx⟩, -⟩ := h; exact ⟨x, _, rfl, .inl hx⟩
    | starParen => obtain ⟨_, _, rfl, ⟨x, rfl, hx⟩, -⟩ := h; exact ⟨x, _, rfl, .inl hx⟩
    | name p => obtain ⟨-, _, _, rfl, ⟨x, rfl, hx⟩, -⟩ := h; exact ⟨x, _, rfl, .inl hx⟩
    | list e l => obtain ⟨_, _, rfl, ⟨x, rfl, hx⟩, -⟩ := h; exact ⟨x, _, rfl, .inl hx⟩

theorem timingControl_first {s : STiming} {w : List STok} (h : s.Toks w) {M : Nat} (hM : w.length ≤ M) {R : List STok} (hR : TEnd s.isName R) :
    ∃ t, MT A Bs t s ∧ First None' (timingControl B (env B M)) (w ++ R) t R := by
  cases s with
  | delay d =>
    obtain ⟨t, ht, ft⟩ := delay_first (A := A) (B := B) h hM hR.1
    refine ⟨.delay t, ⟨?_, ?_⟩, First.orL (First.map (f := TimingCtl.delay) ft)⟩
    · intro u x b h1 h2; rw [evItem, SStm.eval, h1, h2, ht.ev]
    · intro u b h1 h2 h; rw [SStm.Ok] at h; exact ⟨ht.ok h.1, h1 h.2.1, by rw [h2]; exact h.2.2⟩
  | event e =>
    obtain ⟨t, ht, ft⟩ := event_first (A := A) (B := B) h hM hR
    have hn : delayControl (env B M) (w ++ R) = [] := by
      cases e with
      | star => obtain ⟨_, _, rfl, ⟨x, rfl, hx⟩, -⟩ := h; exact bind_nil (tok_neg (by rw [hx]; decide) _)
      | starParen => obtain ⟨_, _, rfl, ⟨x, rfl, hx⟩, -⟩ := h; exact bind_nil (tok_neg (by rw [hx]; decide) _)
      | name p => obtain ⟨-, _, _, rfl, ⟨x, rfl, hx⟩, -⟩ := h; exact bind_nil (tok_neg (by rw [hx]; decide) _)
      | list e l => obtain ⟨_, _, rfl, ⟨x, rfl, hx⟩, -⟩ := h; exact bind_nil (tok_neg (by rw [hx]; decide) _)
    refine ⟨.event t, ⟨?_, ?_⟩, First.orN (bind_nil hn) (First.orL (First.map (f := TimingCtl.event) ft))⟩
    · intro u x b h1 h2; rw [evItem, SStm.eval, h1, h2, ht.ev]
    · intro u b h1 h2 h; rw [SStm.Ok] at h; exact ⟨ht.ok h.1, h1 h.2⟩

end Verif.Sv
