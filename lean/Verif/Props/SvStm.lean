import Verif.SvStmLemmas
import Verif.Props.SvDecl
/-!
# Meaning of SystemVerilog statements (C68)
-/
namespace Verif.Sv
open Verif Verif.Spec.Sv

/-! ## Statements as terms, for the examples and for different meanings -/

/-- Terms for statements. -/
inductive STerm
  | atom (s : String) (b : Bool) (vs : List Term) (evs : List (Ev Term))
  | node (s : String) (vs : List Term) (evs : List (Ev Term)) (l : List STerm)
  | wait (d : Term)
  | delay (d : Term) (s : STerm)
  | block (j : Join) (l : List STerm)
  | case (u : Uniq) (t : CaseType) (v : Term) (vs : List Term) (ss ds : List STerm)
  | for_ (i : List STerm) (c : Term) (st : List STerm) (b : STerm)
  | foreach (v : Term) (vs : List (Option Term)) (b : STerm)
  | decl (f : DeclFlags) (n t : Term) (v : Option Term)

/-- Blocks of one statement are left out. -/
def STerm.mkBlock : Join → List STerm → STerm
  | .SEQ, [s] => s
  | j, l => .block j l

/-- A thread that waits first is a delayed block. -/
def STerm.mkThread : STerm → STerm
  | .wait d => .delay d (.block .SEQ [])
  | .block .SEQ (.wait d :: l) => .delay d (STerm.mkBlock .SEQ l)
  | s => .node "thread" [] [] [s]

/-- The term algebra: the meaning of a statement is the statement itself, with converted tokens. -/
def STerm.alg : SAlg Term STerm where
  nop := .atom "nop" false [] []
  assign b d s := if b then .atom "expr" false [Term.alg.bin "=" d s] [] else .atom "nonblocking" false [d, s] []
  assignDelay b d s dl := .atom "assign #" b [d, s, dl] []
  assignEvent b d s ev := .atom "assign @" b [d, s] ev
  expr v := .atom "expr" false [v] []
  ite c t f := .node "if" [c] [] (t :: f.toList)
  case u t v ps d := .case u t v (ps.map (·.1)) (ps.map (·.2)) d.toList
  forever s := .node "while" [Term.alg.flag true] [] [s]
  while_ c s := .node "while" [c] [] [s]
  doWhile s c := .node "do" [c] [] [s]
  repeat_ n s := .node "repeat" [n] [] [s]
  for_ i c st b := .for_ i (c.getD (Term.alg.flag true)) st b
  foreach v vs b := .foreach v vs b
  ret v := .atom "return" false v.toList []
  break_ := .atom "break" false [] []
  continue_ := .atom "continue" false [] []
  block j l := STerm.mkBlock j l
  label n s := .node "label" [n] [] [s]
  delay d s := .delay d s
  onEvent ev s := .node "@" [] ev [s]
  decl f n t v := .decl f n t v
  auto := .node "auto" []
  type := .node "type" []
  wait d := .wait d
  thread s := STerm.mkThread s
  other s := .atom s false [] []

theorem STerm.agrees : SAgrees Term.alg STerm.alg where
  forever _ := rfl
  forTrue _ _ _ := rfl
  assign _ _ := rfl
  one _ := rfl
  delay d l := by
    cases l with
    | nil => rfl
    | cons s l => rfl

/-! ## The theorem -/

/-- C68 (supported fragment): the converted statement has the meaning of the statement, whatever the statements and operators mean.
Missing: what `okStm` leaves out, see the `C68_violated` theorems. -/
theorem C68_statement_meaning_partial {V S : Type} (A : Alg V) (B : SAlg V S) (leaf : Expr → V) (hA : Agrees A leaf) (hB : SAgrees A B)
    (x : Stm) (h : okStm x) : ∃ o, visitStm x = .ok o ∧ astStm A B leaf o = some (evStm A B x) := by
  obtain ⟨o, h1, h2, _⟩ := stm_eval hA hB x h
  exact ⟨o, h1, h2⟩

/-- C68: no two statements with different meanings have the same AST (up to blocks of one statement, `forever` and `while (1)`, ...). -/
theorem C68_statement_injective_partial (x y : Stm) (hx : okStm x) (hy : okStm y) (h : visitStm x = visitStm y) :
    evStm Term.alg STerm.alg x = evStm Term.alg STerm.alg y := by
  obtain ⟨e, h1, h2, _⟩ := stm_eval Term.agrees STerm.agrees x hx
  obtain ⟨f, h3, h4, _⟩ := stm_eval Term.agrees STerm.agrees y hy
  rw [h1, h3] at h
  cases h
  exact Option.some.inj (h2.symm.trans h4)

/-! ## An example -/

/-- A target that is an identifier. -/
def idT (s : Str) : LVal := .hier (.mk (.mk false .items [.mk (idI s) .none]) [] [] .none)

/-- `d = s;` -/
def asg (d s : Str) : StmN := .stm (.mk none (.opAssign ⟨idT d, .assign, idE s⟩))

/--
```
lbl: begin : blk
  logic [W:Z] v [X:Y];
  if (a) b = c; else if (d) x <= #t y; else begin end
  unique casez (s) e, f: b = c; default: ; endcase
  for (int i = n; i; i += k) #t begin b = c; b = c; end
  @(posedge clk or r) fork b = c; join_none
end : blk
``` -/
def exStm : Stm := .mk (some (idI (c! "lbl"))) (.seq (some (idI (c! "blk")))
  [.data (.vars false none (some (.type exVec)) [⟨idI (c! "v"), [.range (exRange (c! "X") (c! "Y"))], .none⟩])]
  [.stm (.mk none (.ifElse none ⟨idE (c! "a"), false, []⟩ (asg (c! "b") (c! "c"))
      (.stm (.mk none (.ifElse none ⟨idE (c! "d"), false, []⟩
        (.stm (.mk none (.nonblocking (idT (c! "x")) (some (.delay (.value (.ps none (idI (c! "t")))))) (idE (c! "y")))))
        (.stm (.mk none (.seq none [] [] none)))))))),
   .stm (.mk none (.case (some .unique) .casez (idE (c! "s")) [.exprs [idE (c! "e"), idE (c! "f")] (asg (c! "b") (c! "c")), .dflt .semi])),
   .stm (.mk none (.for_ (some (.decls [⟨false, .prim (.atom (c! "int") .none) [], [(idI (c! "i"), idE (c! "n"))]⟩])) (some (idE (c! "i")))
      [.assign ⟨idT (c! "i"), .plus, idE (c! "k")⟩]
      (.stm (.mk none (.timing (.delay (.value (.ps none (idI (c! "t")))))
        (.stm (.mk none (.seq none [] [asg (c! "b") (c! "c"), asg (c! "b") (c! "c")] none)))))))),
   .stm (.mk none (.timing (.event (.events [.ev (some .posedge) (idE (c! "clk")) none, .ev none (idE (c! "r")) none]))
      (.stm (.mk none (.par none [] [asg (c! "b") (c! "c")] .PAR_JOIN_NONE none)))))]
  (some (idI (c! "blk"))))

theorem ok_idI {s : Str} (h : isKw s = false) : okIdent (idI s) := ⟨s, rfl, h⟩

theorem ok_idE {s : Str} (h : isKw s = false) : okExp (idE s) := by
  simp [idE, idP, okExp, okPrim, okPath, okPathItems, okPathItem, okPVA, ok_idI h]

theorem ok_idT {s : Str} (h : isKw s = false) : okLVal (idT s) := by
  simp [idT, okLVal, okHSel, okPath, okPathItems, okPathItem, okPVA, okExps, okSel, ok_idI h]

theorem ok_asg {d s : Str} (hd : isKw d = false) (hs : isKw s = false) : okStmN (asg d s) := by
  simp only [asg, okStmN, okStm, okItem]
  exact ⟨trivial, ok_idT hd, ok_idE hs⟩

example : okStm exStm := by
  have hbc : okStmN (asg (c! "b") (c! "c")) := ok_asg (by decide +kernel) (by decide +kernel)
  simp only [exStm, okStm, okStmN, okStmNs, okItem, okCaseItems]
  refine ⟨⟨rfl, by decide +kernel⟩, ok_idI (by decide +kernel), ?_, ⟨trivial, trivial, ⟨rfl, rfl, ok_idE (by decide +kernel)⟩, hbc, ⟨trivial, trivial,
    ⟨rfl, rfl, ok_idE (by decide +kernel)⟩, ⟨trivial, ok_idT (by decide +kernel), ok_idE (by decide +kernel), ok_idI (by decide +kernel)⟩,
    ⟨trivial, rfl, by simp, trivial⟩, rfl⟩, rfl⟩, ⟨trivial, ok_idE (by decide +kernel), ⟨?_, hbc, trivial, trivial⟩, ?_⟩,
    ⟨trivial, ?_, ok_idE (by decide +kernel), ?_, trivial, ok_idI (by decide +kernel), ⟨trivial, rfl, by simp, hbc, hbc, trivial⟩, rfl⟩,
    ⟨trivial, ?_, trivial, rfl, by simp, hbc, trivial⟩, trivial⟩
  · intro d hd
    simp only [List.mem_cons, List.not_mem_nil, or_false] at hd
    subst hd
    refine ⟨?_, by simp⟩
    intro v hv
    simp only [List.mem_cons, List.not_mem_nil, or_false] at hv
    subst hv
    refine ⟨ok_idI (by decide +kernel), ?_, trivial, ?_, .inl rfl⟩
    · simp only [okVDims, okVDim]
      exact ⟨ok_exRange _ _ (by decide +kernel) (by decide +kernel), trivial⟩
    · simp only [exVec, okDType, okVDims]
      exact ⟨by decide +kernel, ok_exRange _ _ (by decide +kernel) (by decide +kernel), trivial⟩
  · intro e he
    simp only [List.mem_cons, List.not_mem_nil, or_false] at he
    rcases he with rfl | rfl <;> exact ok_idE (by decide +kernel)
  · simp [isDefault, List.filter]
  · intro d hd
    simp only [List.mem_cons, List.not_mem_nil, or_false] at hd
    subst hd
    refine ⟨?_, ?_⟩
    · simp only [okDType, okVDims, okDPrim]
      exact ⟨by decide +kernel, trivial⟩
    · intro x hx
      simp only [List.mem_cons, List.not_mem_nil, or_false] at hx
      subst hx
      exact ⟨ok_idI (by decide +kernel), ok_idE (by decide +kernel)⟩
  · intro i hi
    simp only [List.mem_cons, List.not_mem_nil, or_false] at hi
    subst hi
    exact ⟨ok_idT (by decide +kernel), ok_idE (by decide +kernel)⟩
  · simp only [okEventCtl, okEventItems, okEventItem]
    exact ⟨⟨by simp, trivial, ok_idE (by decide +kernel)⟩, ⟨by simp, trivial, ok_idE (by decide +kernel)⟩, trivial⟩

/-! ## Violations -/

/-- C68 is violated by `disable`, `wait`, `->`, assertions, `force`, `randcase`, ...: they have the AST of the empty statement. -/
theorem C68_violated_unsupported (u : Unsupported) : visitStm (.mk none (.unsupported u)) = visitStmN .semi ∧
    evStm Term.alg STerm.alg (.mk none (.unsupported u)) ≠ evStmN Term.alg STerm.alg .semi := by
  constructor
  · simp only [visitStm, visitStmItem, visitStmN, bind, Except.bind, pure, Except.pure, addLabel]
  · simp [evStm, evItem, evStmN, optLabel, STerm.alg]

/-- C68 is violated by `a = new ...`: it has the AST of the empty statement. -/
theorem C68_violated_new : visitStm (.mk none .classNew) = visitStmN .semi ∧
    evStm Term.alg STerm.alg (.mk none .classNew) ≠ evStmN Term.alg STerm.alg .semi := by
  constructor
  · simp only [visitStm, visitStmItem, visitStmN, bind, Except.bind, pure, Except.pure, addLabel]
  · simp [evStm, evItem, evStmN, optLabel, STerm.alg]

/-- C68 is violated by `case ... inside`: all items are dropped, it has the AST of a `case` without items. -/
theorem C68_violated_case_inside (u : Option UniqPrio) (e : Exp) (l : List CaseItem) :
    visitStm (.mk none (.caseInside u e l)) = visitStm (.mk none (.case u .case e [])) ∧
    evStm Term.alg STerm.alg (.mk none (.caseInside u e l)) ≠ evStm Term.alg STerm.alg (.mk none (.case u .case e [])) := by
  constructor
  · simp only [visitStm, visitStmItem, visitCaseItems, splitCases, bind, Except.bind, pure, Except.pure, CaseKw.toType]
  · simp [evStm, evItem, optLabel, STerm.alg]

/-- C68 is violated by `case ... matches`: likewise. -/
theorem C68_violated_case_matches (u : Option UniqPrio) (kw : CaseKw) (e : Exp) (l : List CaseItem) :
    visitStm (.mk none (.caseMatches u kw e l)) = visitStm (.mk none (.case u kw e [])) ∧
    evStm Term.alg STerm.alg (.mk none (.caseMatches u kw e l)) ≠ evStm Term.alg STerm.alg (.mk none (.case u kw e [])) := by
  constructor
  · simp only [visitStm, visitStmItem, visitCaseItems, splitCases, bind, Except.bind, pure, Except.pure]
  · simp [evStm, evItem, optLabel, STerm.alg]

/-- C68 is violated by `unique if`, `unique0 if` and `priority if`: they have the AST of `if`. -/
theorem C68_violated_unique_if (u : UniqPrio) (c : CondPred) (t f : StmN) :
    visitStm (.mk none (.ifElse (some u) c t f)) = visitStm (.mk none (.ifElse none c t f)) ∧
    evStm Term.alg STerm.alg (.mk none (.ifElse (some u) c t f)) ≠ evStm Term.alg STerm.alg (.mk none (.ifElse none c t f)) := by
  constructor
  · simp only [visitStm, visitStmItem]
  · simp [evStm, evItem, optLabel, STerm.alg]

/-- C68 is violated by `if (a &&& b)`: it has the AST of `if (a)`. -/
theorem C68_violated_condition (a b : Exp) (t : StmN) :
    visitStm (.mk none (.if_ none ⟨a, false, [(b, false)]⟩ t)) = visitStm (.mk none (.if_ none ⟨a, false, []⟩ t)) ∧
    evStm Term.alg STerm.alg (.mk none (.if_ none ⟨a, false, [(b, false)]⟩ t)) ≠ evStm Term.alg STerm.alg (.mk none (.if_ none ⟨a, false, []⟩ t)) := by
  constructor
  · simp only [visitStm, visitStmItem, visitCondPred]
  · simp only [evStm, evItem, optLabel, STerm.alg, evCondPred, List.map_cons, List.map_nil]
    intro h
    injection h with _ h
    injection h with h
    exact Term.node_ne _ _ _ h

/-- C68 is violated by `@(edge e)` and by `iff`: they have the AST of `@(e)`, `@(posedge e)`. -/
theorem C68_violated_events (e c : Exp) :
    visitEventItem (.ev (some .edge) e none) = visitEventItem (.ev none e none) ∧
    visitEventItem (.ev (some .posedge) e (some c)) = visitEventItem (.ev (some .posedge) e none) ∧
    evEventItem Term.alg (.ev (some .edge) e none) ≠ evEventItem Term.alg (.ev none e none) ∧
    evEventItem Term.alg (.ev (some .posedge) e (some c)) ≠ evEventItem Term.alg (.ev (some .posedge) e none) := by
  refine ⟨by simp only [visitEventItem], by simp only [visitEventItem], ?_, ?_⟩ <;> simp [evEventItem]

/-- C68 is violated by `d = repeat (n) @e s`: it has the AST of `d = @e s`. -/
theorem C68_violated_repeat_event (d : LVal) (n s : Exp) (e : EventCtl) :
    visitStm (.mk none (.blocking d (.event (some n) e) s)) = visitStm (.mk none (.blocking d (.event none e) s)) ∧
    evStm Term.alg STerm.alg (.mk none (.blocking d (.event (some n) e) s)) ≠ evStm Term.alg STerm.alg (.mk none (.blocking d (.event none e) s)) := by
  constructor
  · simp only [visitStm, visitStmItem, visitDelayOrEvent]
  · simp [evStm, evItem, evTimedAssign, optLabel, STerm.alg]

/-- C68 is violated by times as delays: all of them have the same AST. -/
theorem C68_violated_time (t : Str) (s : StmN) : visitStm (.mk none (.timing (.delay (.value (.time t))) s)) =
      visitStm (.mk none (.timing (.delay (.value (.time (c! "1ns")))) s)) := by
  simp only [visitStm, visitStmItem, visitTimingCtl, visitDelayCtl, visitDelayVal, visitLit]

/-- C68 is violated by cycle delays `##n`: they have the AST of a delay by a time. -/
theorem C68_violated_cycle_delay (s : StmN) : visitStm (.mk none (.timing .cycle s)) =
      visitStm (.mk none (.timing (.delay (.value (.time (c! "1ns")))) s)) ∧
    evStm Term.alg STerm.alg (.mk none (.timing .cycle s)) ≠
      evStm Term.alg STerm.alg (.mk none (.timing (.delay (.value (.time (c! "1ns")))) s)) := by
  constructor
  · simp only [visitStm, visitStmItem, visitTimingCtl, visitDelayCtl, visitDelayVal, visitLit, bind, Except.bind, pure, Except.pure]
  · simp [evStm, evItem, optLabel, STerm.alg]

/-- C68 is violated by omitted variables of `foreach`: `foreach (a[, j])` has the AST of `foreach (a[j])`. -/
theorem C68_violated_foreach (c : HSel) (j : Ident) (b : Stm) :
    visitStm (.mk none (.foreach c [none, some j] b)) = visitStm (.mk none (.foreach c [some j] b)) ∧
    evStm Term.alg STerm.alg (.mk none (.foreach c [none, some j] b)) ≠ evStm Term.alg STerm.alg (.mk none (.foreach c [some j] b)) := by
  constructor
  · simp only [visitStm, visitStmItem, visitLoopVars]
  · simp [evStm, evItem, optLabel, STerm.alg]

/-- C68 is violated by `#d fork ... join`: the wait is one of the parallel statements. -/
theorem C68_violated_delayed_fork (t s : Str) (j : Join) (hj : j ≠ .SEQ) :
    visitStm (.mk none (.timing (.delay (.value (.ps none (idI t)))) (.stm (.mk none (.par none [] [.stm (.mk none (.prim (idP s)))] j none))))) =
      .ok (.process {} .NONE none (.block {} j [.wait {} [.id none t], .expr {} (.id none s)])) ∧
    astStm Term.alg STerm.alg Term.tok (.process {} .NONE none (.block {} j [.wait {} [.id none t], .expr {} (.id none s)])) ≠
      some (evStm Term.alg STerm.alg
        (.mk none (.timing (.delay (.value (.ps none (idI t)))) (.stm (.mk none (.par none [] [.stm (.mk none (.prim (idP s)))] j none)))))) := by
  have hp : visitPrim (idP s) = .ok (.id none s) := by
    have := visit_idE s
    simpa only [idE, visitExp] using this
  constructor
  · simp only [visitStm, visitStmItem, visitStmN, visitStmNs, visitTimingCtl, visitDelayCtl, visitDelayVal, visitPsIdent, visitIdent, identStr, idI,
      visitBlockDecls, hp, blockLabels, addLabel, mkTimed, inBlock, bind, Except.bind, pure, Except.pure, Bool.false_eq_true, if_false,
      List.nil_append]
  · cases j with
    | SEQ => exact absurd rfl hj
    | PAR_JOIN | PAR_JOIN_ANY | PAR_JOIN_NONE =>
      simp [astStm, withInfo, astStms, astEval, evStm, evItem, optLabel, STerm.alg, STerm.mkBlock, STerm.mkThread]

/-- C68 is violated by `parameter` in a block: it has the AST of an automatic variable. -/
theorem C68_violated_parameter (t : DType) (n : Ident) (e : Exp) (r : List Obj)
    (h : visitBlockDecl (.param (.val (some (.type t)) [⟨n, [], some (.mtm (.one e))⟩])) = .ok r)
    (hc : ∀ x, visitDType t = .ok x → x.clone = .ok x) :
    visitBlockDecl (.data (.vars false (some .automatic) (some (.type t)) [⟨n, [], .expr e⟩])) = .ok r ∧
    evBlockDecl Term.alg STerm.alg (.param (.val (some (.type t)) [⟨n, [], some (.mtm (.one e))⟩])) ≠
      evBlockDecl Term.alg STerm.alg (.data (.vars false (some .automatic) (some (.type t)) [⟨n, [], .expr e⟩])) := by
  constructor
  · simp only [visitBlockDecl, visitParamDecl, visitTypedParams, visitParamAssigns, visitParamAssign, visitPExpr, visitMTM, visitDTypeOrImpl,
      bind_ok, pure_ok, Except.ok.injEq] at h
    obtain ⟨ds, ⟨x, hx, l, ⟨_, ⟨v, hv, s, hs, rfl⟩, _, rfl, rfl⟩, h⟩, rfl⟩ := h
    simp only [bind_ok, pure_ok] at h
    obtain ⟨_, h, rfl⟩ := h
    simp only [setTypesRest, Except.ok.injEq] at h
    subst h
    simp only [visitBlockDecl, visitDataDecl, visitDTypeOrImpl, visitVarDecls, hx, hc x hx, hs, hv, applyVDims, visitVDims, visitVarInit, bind,
      Except.bind, pure, Except.pure, List.map_cons, List.map_nil, visitLifetime]
  · simp [evBlockDecl, evParamDecl, evParam, evDataDecl, evVarDecl, STerm.alg]

example : let d : BlockDecl := .param (.val (some (.type exVec)) [⟨idI (c! "P"), [], some (.mtm (.one (idE (c! "x"))))⟩])
    (∃ r, visitBlockDecl d = .ok r) ∧ ∀ x, visitDType exVec = .ok x → x.clone = .ok x := by
  constructor
  · simp only [visitBlockDecl, visitParamDecl, visitTypedParams, visitParamAssigns, visitParamAssign, visitPExpr, visitMTM, visitDTypeOrImpl,
      visit_exVec, visit_idE, identStr, idI, bind, Except.bind, pure, Except.pure]
    exact ⟨_, rfl⟩
  · intro x h
    rw [visit_exVec] at h
    obtain rfl := Except.ok.inj h
    rfl

/-- C68 is violated by `x = new` in a declaration: it has the AST of a declaration without value. -/
theorem C68_violated_new_value : visitVarInit .new = visitVarInit .none ∧ evVarInit Term.alg .new ≠ evVarInit Term.alg .none := by
  constructor
  · rfl
  · simp [evVarInit]

/-- C68 is violated by `let`: the declaration is dropped. -/
theorem C68_violated_let (l : List BlockDecl) : visitBlockDecls (.let_ :: l) = visitBlockDecls l := by
  simp only [visitBlockDecls, visitBlockDecl, bind, Except.bind, pure, Except.pure, List.nil_append]
  cases visitBlockDecls l <;> rfl

end Verif.Sv
