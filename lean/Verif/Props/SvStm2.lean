import Verif.Props.SvStm
/-!
# Labels (C69), `initial` (C70) and `always` (C71)
-/
namespace Verif.Sv
open Verif Verif.Spec.Sv

/-! ## Specification -/

/-- The name of an identifier: an escaped identifier is written with a leading backslash that is no part of the name. -/
def Spec.name (i : Ident) : Str := if i.esc then i.text.drop 1 else i.text

/-- The label after `begin` or `fork`. -/
def Spec.blockLabel : StmItem → Option Ident
  | .par l _ _ _ _ => l
  | .seq l _ _ _ => l
  | _ => none

/-- The label after `end` or `join`. -/
def Spec.endLabel : StmItem → Option Ident
  | .par _ _ _ _ e => e
  | .seq _ _ _ e => e
  | _ => none

/-- The statement begins with a delay or an event control. -/
def Spec.isTiming : StmItem → Bool
  | .timing .. => true
  | _ => false

/-- The process kind for the keyword. -/
def Spec.triggerOf : AlwaysKw → Trigger
  | .always => .NONE
  | .comb => .COMB
  | .ff => .FF
  | .latch => .LATCH

/-! ## Conversion of the parts -/

theorem blockLabels_ok {a b : Option Ident} {l : List Str} (h : blockLabels a b = .ok l) (hb : a = none → b = none) :
    l = (a.map Spec.name).toList := by
  cases a with
  | none =>
    obtain rfl := hb rfl
    exact (Except.ok.inj h).symm
  | some i =>
    simp only [blockLabels, identStr, svEscapedId, substr, bind_ok, pure_ok] at h
    obtain ⟨s, h, rfl⟩ := h
    simp only [Option.map_some, Option.toList_some, Spec.name]
    split at h
    · rename_i he
      split at h
      · cases h
      · rename_i hs
        obtain rfl := Except.ok.inj h
        rw [if_pos he]
        split at hs
        · cases hs; rfl
        · cases hs
    · rename_i he
      obtain rfl := Except.ok.inj h
      rw [if_neg he]

theorem mkAssign_ok {d s dl : Expr} {ev : Option (List Expr)} {b : Bool} {o : Obj} (h : mkAssign d s dl ev b = .ok o) : o = .assign {} d s dl ev b := by
  unfold mkAssign at h
  split at h
  · cases h
  · cases h
  · exact (Except.ok.inj h).symm

theorem collapse_ok {i : StmInfo} {c : Expr} {t f o : Obj} (h : collapseElifs i c t f = .ok o) : ∃ el f', o = .if_ i c t el f' := by
  unfold collapseElifs at h
  split at h
  · split at h
    · exact ⟨_, _, (Except.ok.inj h).symm⟩
    · cases h
  · exact ⟨_, _, (Except.ok.inj h).symm⟩

theorem mkTimed_ok {d : Expr} {s : Option (List Expr)} {b o : Obj} (h : mkTimed d s b = .ok o) : ∃ b', o = .process {} .NONE s b' := by
  unfold mkTimed at h
  split at h
  · exact ⟨_, (Except.ok.inj h).symm⟩
  · cases h
  · exact ⟨_, (Except.ok.inj h).symm⟩
  · exact ⟨_, (Except.ok.inj h).symm⟩

def isProcess : Obj → Bool
  | .process .. => true
  | _ => false

/-- The object for a statement without its label. -/
theorem item_ok {x : StmItem} {o : Obj} (h : visitStmItem x = .ok o) (he : Spec.blockLabel x = none → Spec.endLabel x = none) :
    o.info? = some ⟨((Spec.blockLabel x).map Spec.name).toList, false⟩ ∧ isProcess o = Spec.isTiming x := by
  cases x with
  | blocking d t s =>
    simp only [visitStmItem, bind_ok] at h
    obtain ⟨_, _, _, _, _, _, h⟩ := h
    rw [mkAssign_ok h]
    exact ⟨rfl, rfl⟩
  | arrayNew d =>
    simp only [visitStmItem, bind_ok, pure_ok] at h
    obtain ⟨_, _, rfl⟩ := h
    exact ⟨rfl, rfl⟩
  | classNew =>
    simp only [visitStmItem] at h
    obtain rfl := Except.ok.inj h
    exact ⟨rfl, rfl⟩
  | opAssign a =>
    simp only [visitStmItem, bind_ok, pure_ok] at h
    obtain ⟨_, _, rfl⟩ := h
    exact ⟨rfl, rfl⟩
  | nonblocking d t s =>
    simp only [visitStmItem, bind_ok] at h
    obtain ⟨_, _, _, _, h⟩ := h
    split at h
    · rw [mkAssign_ok h]
      exact ⟨rfl, rfl⟩
    · simp only [bind_ok] at h
      obtain ⟨_, _, h⟩ := h
      rw [mkAssign_ok h]
      exact ⟨rfl, rfl⟩
  | unsupported u =>
    simp only [visitStmItem] at h
    obtain rfl := Except.ok.inj h
    exact ⟨rfl, rfl⟩
  | incDec p i l =>
    simp only [visitStmItem, bind_ok, pure_ok] at h
    obtain ⟨_, _, rfl⟩ := h
    exact ⟨rfl, rfl⟩
  | prim p =>
    simp only [visitStmItem, bind_ok, pure_ok] at h
    obtain ⟨_, _, rfl⟩ := h
    exact ⟨rfl, rfl⟩
  | caseInside u e l =>
    simp only [visitStmItem, bind_ok, pure_ok] at h
    obtain ⟨_, _, rfl⟩ := h
    exact ⟨rfl, rfl⟩
  | caseMatches u k e l =>
    simp only [visitStmItem, bind_ok, pure_ok] at h
    obtain ⟨_, _, rfl⟩ := h
    exact ⟨rfl, rfl⟩
  | case u k e l =>
    simp only [visitStmItem, bind_ok, pure_ok] at h
    obtain ⟨_, _, _, _, _, _, rfl⟩ := h
    exact ⟨rfl, rfl⟩
  | if_ u c t =>
    simp only [visitStmItem, bind_ok] at h
    obtain ⟨_, _, _, _, h⟩ := h
    obtain ⟨_, _, rfl⟩ := collapse_ok h
    exact ⟨rfl, rfl⟩
  | ifElse u c t f =>
    simp only [visitStmItem, bind_ok] at h
    obtain ⟨_, _, _, _, _, _, h⟩ := h
    obtain ⟨_, _, rfl⟩ := collapse_ok h
    exact ⟨rfl, rfl⟩
  | voidCall e =>
    simp only [visitStmItem, bind_ok, pure_ok] at h
    obtain ⟨_, _, rfl⟩ := h
    exact ⟨rfl, rfl⟩
  | forever b =>
    simp only [visitStmItem, bind_ok, pure_ok] at h
    obtain ⟨_, _, rfl⟩ := h
    exact ⟨rfl, rfl⟩
  | repeat_ e b =>
    simp only [visitStmItem, bind_ok, pure_ok] at h
    obtain ⟨_, _, _, _, rfl⟩ := h
    exact ⟨rfl, rfl⟩
  | while_ e b =>
    simp only [visitStmItem, bind_ok, pure_ok] at h
    obtain ⟨_, _, _, _, rfl⟩ := h
    exact ⟨rfl, rfl⟩
  | doWhile b e =>
    simp only [visitStmItem, bind_ok, pure_ok] at h
    obtain ⟨_, _, _, _, rfl⟩ := h
    exact ⟨rfl, rfl⟩
  | for_ i c s b =>
    simp only [visitStmItem, bind_ok, pure_ok] at h
    obtain ⟨_, _, _, _, _, _, _, _, rfl⟩ := h
    exact ⟨rfl, rfl⟩
  | foreach c v b =>
    simp only [visitStmItem, bind_ok, pure_ok] at h
    obtain ⟨_, _, _, _, _, _, rfl⟩ := h
    exact ⟨rfl, rfl⟩
  | return_ e =>
    cases e with
    | none =>
      simp only [visitStmItem] at h
      obtain rfl := Except.ok.inj h
      exact ⟨rfl, rfl⟩
    | some e =>
      simp only [visitStmItem, bind_ok, pure_ok] at h
      obtain ⟨_, _, rfl⟩ := h
      exact ⟨rfl, rfl⟩
  | break_ =>
    simp only [visitStmItem] at h
    obtain rfl := Except.ok.inj h
    exact ⟨rfl, rfl⟩
  | continue_ =>
    simp only [visitStmItem] at h
    obtain rfl := Except.ok.inj h
    exact ⟨rfl, rfl⟩
  | par a ds l j b =>
    simp only [visitStmItem, bind_ok, pure_ok] at h
    obtain ⟨_, _, _, _, ls, hl, rfl⟩ := h
    rw [blockLabels_ok hl he]
    exact ⟨rfl, rfl⟩
  | timing t b =>
    simp only [visitStmItem, bind_ok] at h
    obtain ⟨_, _, _, _, h⟩ := h
    obtain ⟨_, rfl⟩ := mkTimed_ok h
    exact ⟨rfl, rfl⟩
  | seq a ds l b =>
    simp only [visitStmItem, bind_ok, pure_ok] at h
    obtain ⟨_, _, _, _, ls, hl, rfl⟩ := h
    rw [blockLabels_ok hl he]
    exact ⟨rfl, rfl⟩

theorem info_mapInfo (f : StmInfo → StmInfo) (o : Obj) : (o.mapInfo f).info? = o.info?.map f := by
  cases o <;> rfl

/-! ## C69: labels -/

/-- C69 (supported fragment): the labels of a converted statement are its label and the label of its block, in this order, and it is not
marked as part of a generate construct.
Missing: escaped labels of statements, blocks with a label at their end only, see below. -/
theorem C69_labels_partial (label : Option Ident) (x : StmItem) (o : Obj) (h : visitStm (.mk label x) = .ok o)
    (hl : ∀ i, label = some i → i.esc = false) (he : Spec.blockLabel x = none → Spec.endLabel x = none) :
    o.info? = some ⟨(label.map Spec.name).toList ++ ((Spec.blockLabel x).map Spec.name).toList, false⟩ := by
  simp only [visitStm, bind_ok, pure_ok] at h
  obtain ⟨o', h, rfl⟩ := h
  have h1 := (item_ok h he).1
  cases label with
  | none => simpa only [addLabel, Option.map_none, Option.toList_none, List.nil_append] using h1
  | some i =>
    simp only [addLabel, info_mapInfo, h1, Option.map_some, Option.toList_some, Spec.name, hl i rfl, Bool.false_eq_true, if_false, List.cons_append,
      List.nil_append]

example : (∃ o, visitStm (.mk (some (idI (c! "lbl"))) (.seq (some ⟨true, c! "\\a+b "⟩) [] [.semi] (some ⟨true, c! "\\a+b "⟩))) = .ok o) ∧
    ((some (idI (c! "lbl"))).map Spec.name).toList ++ ((some (⟨true, c! "\\a+b "⟩ : Ident)).map Spec.name).toList = [c! "lbl", c! "a+b "] := by
  constructor
  · simp only [visitStm, visitStmItem, visitStmNs, visitStmN, visitBlockDecls, blockLabels, identStr, bind, Except.bind, pure, Except.pure]
    exact ⟨_, rfl⟩
  · rfl

/-- C69 is violated by escaped labels: the label keeps its backslash, while the label of a block and all names do not. -/
theorem C69_violated_escaped (t : Str) (ht : t.head? = some '\\') :
    visitStm (.mk (some ⟨true, t⟩) (.seq none [] [] none)) = .ok (.block ⟨[t], false⟩ .SEQ []) ∧
    visitStm (.mk none (.seq (some ⟨true, t⟩) [] [] none)) = .ok (.block ⟨[t.drop 1], false⟩ .SEQ []) ∧ t ≠ t.drop 1 := by
  cases t with
  | nil => simp at ht
  | cons a t =>
    refine ⟨?_, ?_, ?_⟩
    · simp only [visitStm, visitStmItem, visitStmNs, visitBlockDecls, blockLabels, bind, Except.bind, pure, Except.pure, addLabel, Obj.mapInfo,
        List.append_nil]
    · have : svEscapedId (a :: t) = .ok t := by
        simp [svEscapedId, substr]
      simp only [visitStm, visitStmItem, visitStmNs, visitBlockDecls, blockLabels, identStr, this, bind, Except.bind, pure, Except.pure, addLabel,
        if_true, List.append_nil, List.drop_succ_cons, List.drop_zero]
    · intro h
      have := congrArg List.length h
      simp at this

example : (c! "\\a+b ").head? = some '\\' := rfl

/-- C69 is violated in an `else` branch: the label of an `if` there is lost. -/
theorem C69_violated_else_if (u v : Option UniqPrio) (l : Ident) (c d : CondPred) (t s f : StmN) :
    visitStm (.mk none (.ifElse u c t (.stm (.mk (some l) (.ifElse v d s f))))) = visitStm (.mk none (.ifElse u c t (.stm (.mk none (.ifElse v d s f))))) := by
  simp only [visitStm, visitStmItem, visitStmN, bind, Except.bind, pure, Except.pure]
  cases visitCondPred c with
  | error e => rfl
  | ok c =>
    cases visitStmN t with
    | error e => rfl
    | ok t =>
      cases visitCondPred d with
      | error e => rfl
      | ok d =>
        cases visitStmN s with
        | error e => rfl
        | ok s =>
          cases visitStmN f with
          | error e => rfl
          | ok f =>
            dsimp only
            cases h : collapseElifs {} d s f with
            | error e => rfl
            | ok o =>
              have h2 : ∃ el f', o = .if_ {} d s el f' := collapse_ok h
              obtain ⟨el, f', rfl⟩ := h2
              simp only [addLabel, Obj.mapInfo, collapseElifs, if_true]

/-- C69 is violated by a block with a label at its end only: the AST is that of a block with the label at both ends. -/
theorem C69_violated_end (l : Ident) (ds : List BlockDecl) (ss : List StmN) :
    visitStm (.mk none (.seq none ds ss (some l))) = visitStm (.mk none (.seq (some l) ds ss (some l))) := by
  simp only [visitStm, visitStmItem, blockLabels]

/-! ## C70: `initial` -/

theorem waitsForever_append (l : List Obj) : waitsForever (l ++ [.wait {} []]) = some l := by
  induction l with
  | nil => rfl
  | cons o l ih =>
    have h : waitsForever (o :: (l ++ [.wait {} []])) = (waitsForever (l ++ [.wait {} []])).map (o :: ·) := by
      conv_lhs => unfold waitsForever
      split
      · simp_all
      · rename_i heq
        simp only [List.cons.injEq] at heq
        simp at heq
      · rename_i heq
        simp only [List.cons.injEq] at heq
        obtain ⟨rfl, rfl⟩ := heq
        rfl
    rw [List.cons_append, h, ih]
    rfl

/-- C70 (supported fragment): `initial s` is converted to a process that runs `s` once and then waits forever.
Missing: `fork` as the statement (see `C70_violated_fork`), statements that `okStmN` leaves out. -/
theorem C70_initial_partial {V S : Type} (A : Alg V) (B : SAlg V S) (leaf : Expr → V) (hA : Agrees A leaf) (hB : SAgrees A B)
    (x : StmN) (h : okStmN x) (hf : isForkN x = false) : ∃ o, visitInitial x = .ok o ∧ astInitial A B leaf o = some (evStmN A B x) := by
  obtain ⟨o, h1, h2, hs⟩ := stmN_eval hA hB x h
  have h3 := hs.2.2.2
  clear hs
  refine ⟨.process {} .NONE none (inBlock (fun l => l ++ [.wait {} []]) o), ?_, ?_⟩
  · simp only [visitInitial, h1, bind, Except.bind, pure, Except.pure]
  · unfold inBlock
    split
    · rename_i i j l
      obtain rfl := h3 hf i j l rfl
      simp only [astStm] at h2
      simp only [astInitial, waitsForever_append, Option.bind_some, h2]
    · have hw : waitsForever [o, .wait {} []] = some [o] := waitsForever_append [o]
      simp only [astInitial, List.cons_append, List.nil_append, hw, Option.bind_some, withInfo, astStms, h2, Option.bind_eq_bind, pure,
        Option.map_some, Bool.false_eq_true, if_false, List.foldr_nil, hB.one]

example : okStmN (asg (c! "b") (c! "c")) ∧ isForkN (asg (c! "b") (c! "c")) = false := ⟨ok_asg (by decide +kernel) (by decide +kernel), rfl⟩

/-- C70 is violated by `initial fork ... join`: the wait at the end is one of the parallel statements. -/
theorem C70_violated_fork (l : List StmN) (j : Join) (hj : j ≠ .SEQ) (o : Obj)
    (h : visitInitial (.stm (.mk none (.par none [] l j none))) = .ok o) :
    (∃ l', o = .process {} .NONE none (.block {} j (l' ++ [.wait {} []]))) ∧ astInitial Term.alg STerm.alg Term.tok o = none := by
  simp only [visitInitial, visitStmN, visitStm, visitStmItem, visitBlockDecls, blockLabels, addLabel, bind_ok, pure_ok, Except.ok.injEq] at h
  obtain ⟨_, ⟨_, ⟨_, rfl, l', hl, _, rfl, rfl⟩, rfl⟩, rfl⟩ := h
  refine ⟨⟨l', rfl⟩, ?_⟩
  cases j with
  | SEQ => exact absurd rfl hj
  | PAR_JOIN | PAR_JOIN_ANY | PAR_JOIN_NONE => rfl

example : ∃ o, visitInitial (.stm (.mk none (.par none [] [.semi] .PAR_JOIN none))) = .ok o := by
  simp only [visitInitial, visitStmN, visitStmNs, visitStm, visitStmItem, visitBlockDecls, blockLabels, addLabel, bind, Except.bind, pure, Except.pure]
  exact ⟨_, rfl⟩

/-! ## C71: `always` -/

/-- C71 (supported fragment): `always @(events) s` is a process of the kind of its keyword with these events that runs `s`. -/
theorem C71_always_events_partial {V S : Type} (A : Alg V) (B : SAlg V S) (leaf : Expr → V) (hA : Agrees A leaf) (hB : SAgrees A B)
    (kw : AlwaysKw) (e : EventCtl) (x : StmN) (he : okEventCtl e) (hx : okStmN x) :
    ∃ evs b, visitAlways kw (.mk none (.timing (.event e) x)) = .ok (.process {} (Spec.triggerOf kw) (some evs) b) ∧
      astEvs A leaf evs = some (evEventCtl A e) ∧ astStm A B leaf b = some (evStmN A B x) := by
  obtain ⟨o, h1, h2, _⟩ := stmN_eval hA hB x hx
  obtain ⟨evs, h3, h4⟩ := eventCtl_eval hA e he
  refine ⟨evs, o, ?_, h4, h2⟩
  simp only [visitAlways, visitStm, visitStmItem, visitTimingCtl, h3, h1, bind, Except.bind, pure, Except.pure, mkTimed, addLabel]
  cases kw <;> rfl

/-- C71 (supported fragment): `always_comb s`, `always_ff s`, `always_latch s` without event control are processes of the kind of their
keyword, without events, that run `s`.
Missing: plain `always` without timing control (see `C71_violated_always`), statements that `okStm` leaves out. -/
theorem C71_always_plain_partial {V S : Type} (A : Alg V) (B : SAlg V S) (leaf : Expr → V) (hA : Agrees A leaf) (hB : SAgrees A B)
    (kw : AlwaysKw) (hk : kw ≠ .always) (label : Option Ident) (x : StmItem) (hx : okStm (.mk label x)) (ht : Spec.isTiming x = false) :
    ∃ b, visitAlways kw (.mk label x) = .ok (.process {} (Spec.triggerOf kw) none b) ∧ astStm A B leaf b = some (evStm A B (.mk label x)) := by
  obtain ⟨o, h1, h2, _⟩ := stm_eval hA hB _ hx
  have hp : isProcess o = false := by
    simp only [visitStm, bind_ok, pure_ok] at h1
    obtain ⟨o', h1, rfl⟩ := h1
    have hb : Spec.blockLabel x = none → Spec.endLabel x = none := by
      intro hb
      simp only [okStm] at hx
      cases x <;> first | rfl | skip
      · simp only [Spec.blockLabel] at hb
        subst hb
        simp only [okItem, okBlockLabel] at hx
        exact hx.2.1
      · simp only [Spec.blockLabel] at hb
        subst hb
        simp only [okItem, okBlockLabel] at hx
        exact hx.2.1
    have h3 := (item_ok h1 hb).2
    rw [ht] at h3
    rw [← h3]
    cases label with
    | none => rfl
    | some i => cases o' <;> rfl
  refine ⟨o, ?_, h2⟩
  simp only [visitAlways, h1, bind, Except.bind, pure, Except.pure]
  cases kw with
  | always => exact absurd rfl hk
  | comb | ff | latch => cases o <;> first | rfl | cases hp

/-- C71 (supported fragment): `always #d s` is a process that waits and then runs `s`. -/
theorem C71_always_delay_partial {V S : Type} (A : Alg V) (B : SAlg V S) (leaf : Expr → V) (hA : Agrees A leaf) (hB : SAgrees A B)
    (d : DelayCtl) (x : StmN) (h : okStm (.mk none (.timing (.delay d) x))) :
    ∃ b, visitAlways .always (.mk none (.timing (.delay d) x)) = .ok (.process {} .NONE none b) ∧
      (astStm A B leaf b).map B.thread = some (B.delay (evDelayCtl A d) (evStmN A B x)) := by
  simp only [okStm, okItem] at h
  obtain ⟨_, hd, hx, hl⟩ := h
  obtain ⟨o, h1, h2, _, _, h3, _⟩ := stmN_eval hA hB x hx
  obtain ⟨e, h4, h5⟩ := delayCtl_eval hA d hd
  obtain ⟨b, h6, h7⟩ := mkTimed_eval hB h5 h2 (h3 hl)
  refine ⟨b, ?_, ?_⟩
  · simp only [visitAlways, visitStm, visitStmItem, visitTimingCtl, h4, h1, h6, bind, Except.bind, pure, Except.pure, addLabel]
  · simpa only [astStm, withInfo, Bool.false_eq_true, if_false, List.foldr_nil, Option.map_id'] using h7

example : okEventCtl .star ∧ okStmN (asg (c! "b") (c! "c")) ∧
    okStm (.mk none (.opAssign ⟨idT (c! "b"), .assign, idE (c! "c")⟩)) ∧ Spec.isTiming (.opAssign ⟨idT (c! "b"), .assign, idE (c! "c")⟩) = false ∧
    okStm (.mk none (.timing (.delay (.value (.ps none (idI (c! "t"))))) (asg (c! "b") (c! "c")))) := by
  have hbc : okStmN (asg (c! "b") (c! "c")) := ok_asg (by decide +kernel) (by decide +kernel)
  refine ⟨trivial, hbc, hbc, rfl, ?_⟩
  simp only [okStm, okItem]
  exact ⟨trivial, ok_idI (by decide +kernel), hbc, rfl⟩

/-- C71 is violated by plain `always` without timing control: the object is the statement, there is no process. -/
theorem C71_violated_always (label : Option Ident) (x : StmItem) (o : Obj) (h : visitAlways .always (.mk label x) = .ok o)
    (ht : Spec.isTiming x = false) (he : Spec.blockLabel x = none → Spec.endLabel x = none) :
    isProcess o = false ∧ visitStm (.mk label x) = .ok o := by
  simp only [visitAlways, bind_ok, pure_ok] at h
  obtain ⟨o, h, rfl⟩ := h
  refine ⟨?_, h⟩
  simp only [visitStm, bind_ok, pure_ok] at h
  obtain ⟨o', h, rfl⟩ := h
  have h3 := (item_ok h he).2
  rw [ht] at h3
  rw [← h3]
  cases label with
  | none => rfl
  | some i => cases o' <;> rfl

example : ∃ o, visitAlways .always (.mk none (.seq none [] [.semi] none)) = .ok o := by
  simp only [visitAlways, visitStmN, visitStmNs, visitStm, visitStmItem, visitBlockDecls, blockLabels, addLabel, bind, Except.bind, pure, Except.pure]
  exact ⟨_, rfl⟩

end Verif.Sv
