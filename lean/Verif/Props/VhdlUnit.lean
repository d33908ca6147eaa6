import Verif.VhdlUnitLemmas
import Verif.Props.VhdlDecl
import Verif.Spec.VhdlHier
/-!
# Meaning of VHDL concurrent statements (C87), component instances (C88) and design files (C89); `hierarchyOnly` (C90)
-/
namespace Verif.Vhdl
open Verif Verif.Spec

/-! ## Concurrent statements -/

/-- C87 (supported fragment): the object of a concurrent statement (process, assignment, call, assertion, block, instance, generate
statement) has the meaning of the statement. Missing: what `okConc` leaves out, see the `C87_violated` theorems. -/
theorem C87_statement_meaning_partial {V S : Type} (A : Alg V) (B : SAlg V S) (leaf : Expr → V) (hA : Agrees A leaf) (hB : SAgrees B leaf)
    (c : Conc) (h : okConc c) : ∃ o, visitConc false c = .ok o ∧ astObj A B leaf o = some (evConc A B c) :=
  conc_eval hA hB c h

/-- C87: no two concurrent statements with different meanings have the same AST. -/
theorem C87_statement_injective_partial (x y : Conc) (hx : okConc x) (hy : okConc y) (h : visitConc false x = visitConc false y) :
    evConc Term.alg STerm.alg x = evConc Term.alg STerm.alg y := by
  obtain ⟨e, h1, h2⟩ := conc_eval Term.agrees STerm.agrees x hx
  obtain ⟨f, h3, h4⟩ := conc_eval Term.agrees STerm.agrees y hy
  rw [h1, h3] at h
  cases h
  exact Option.some.inj (h2.symm.trans h4)

/-- C87: of the concurrent statements of an architecture, supported or not, every one becomes one object, in order. -/
theorem C87_one_object_each (h : Bool) (l : List Conc) (os : List Obj) (hl : visitConcs h l = .ok os) :
    List.Forall₂ (fun c o => visitConc h c = .ok o) l os := by
  induction l generalizing os with
  | nil => simp only [visitConcs] at hl; cases hl; exact .nil
  | cons s l ih =>
    simp only [visitConcs] at hl
    obtain ⟨o, ho, hl⟩ := bind_ok hl
    obtain ⟨r, hr, hl⟩ := bind_ok hl
    cases hl
    exact .cons ho (ih r hr)

/-- `d <= s;` as a concurrent statement -/
def sigC (d s : Str) : Conc := .plain none (.assign false false (idT d) none (.elems ⟨idE s, none⟩ []))

theorem ok_sigC (d s : Str) : okConc (sigC d s) := by
  simp only [sigC, okConc, okConcKind, idT, okTarget]
  exact ⟨trivial, trivial, trivial, ok_idN d, _, rfl, ok_idE s⟩

/-- `lbl: comp generic map (x) port map (p => a);` -/
def exInst (u : InstUnit) : Conc := .inst (c! "lbl") u (some [.pos (.desig (.expr (idE (c! "x"))))])
  (some [.named (.lit (.ident (c! "p"))) (.desig (.expr (idE (c! "a"))))])

theorem ok_exMaps : okMap (some [.pos (.desig (.expr (idE (c! "x"))))]) ∧
    okMap (some [.named (.lit (.ident (c! "p"))) (.desig (.expr (idE (c! "a"))))]) := by
  constructor <;> intro l hl <;> cases hl <;> simp only [okAssocs, okAssoc, okActual, okDesig]
  · exact ⟨ok_idE _, trivial⟩
  · exact ⟨⟨ok_idN _, ok_idE _⟩, trivial⟩

theorem ok_exInst (kw : Bool) : okConc (exInst (.component kw (.lit (.ident (c! "comp"))))) := by
  simp only [exInst, okConc, okUnit]
  exact ⟨ok_idN _, ok_exMaps.1, ok_exMaps.2⟩

/--
```
g: for i in a'range generate
  signal t : T;
begin
  p: process (a) variable v : T; begin d <= e; end process;
  h: if c generate lbl: comp generic map (x) port map (p => a); elsif d generate d <= e; else generate b: block begin d <= e; end block; end generate h;
  k: case s generate when x | y => d <= e; end generate;
  with s select d <= a when x | y, b when others;
end generate g;
``` -/
def exConc : Conc := .forGen (c! "g") (c! "i") (.range (.attr (.lit (.ident (c! "a"))) false (c! "range")))
  (.mk [.signal ⟨[c! "t"], idS (c! "T"), none⟩ false] true
    [.plain (some (c! "p")) (.process false (.names [.lit (.ident (c! "a"))]) [.variable false ⟨[c! "v"], idS (c! "T"), none⟩] [sigS (c! "d") (c! "e")]),
     .ifGen (c! "h") (.mk none (idE (c! "c")) (.mk [] false [exInst (.component false (.lit (.ident (c! "comp"))))]))
       [.mk none (idE (c! "d")) (.mk [] false [sigC (c! "d") (c! "e")])]
       (.some none (.mk [] false [.block (c! "b") none [] [] [] [sigC (c! "d") (c! "e")]])) (some (c! "h")),
     .caseGen (c! "k") (idE (c! "s")) [.mk none [.simple (.prim (idP (c! "x"))), .simple (.prim (idP (c! "y")))] (.mk [] false [sigC (c! "d") (c! "e")])] none,
     .plain none (.assignSel false false (idE (c! "s")) false (idT (c! "d")) none
       [(.elems ⟨idE (c! "a"), none⟩ [], [.simple (.prim (idP (c! "x"))), .simple (.prim (idP (c! "y")))]), (.elems ⟨idE (c! "b"), none⟩ [], [.others])])])
  (some (c! "g"))

theorem ok_exConc : okConc exConc := by
  simp only [exConc, okConc, okConcs, okGenBody, okGenCond, okGenConds, okGenElse, okGenAlts, okDecls, okDecl, okDiscr, okRange, okConcKind, okSeqs,
    okChoices, okChoice, okSens, idT, okTarget]
  refine ⟨⟨ok_idN _, trivial⟩, ⟨⟨⟨ok_vars _ _ none, trivial⟩, trivial⟩,
    ⟨trivial, ?_, ⟨ok_vars _ _ none, trivial⟩, ok_sigS _ _, trivial⟩,
    ⟨⟨trivial, ok_idE _, trivial, ok_exInst _, trivial⟩, ⟨⟨trivial, ok_idE _, trivial, ok_sigC _ _, trivial⟩, trivial⟩,
      ⟨trivial, trivial, ⟨trivial, trivial, trivial, trivial, ok_sigC _ _, trivial⟩, trivial⟩, .inr trivial⟩,
    ⟨ok_idE _, ⟨trivial, ⟨ok_idP _, ok_idP _, trivial⟩, ⟨trivial, ok_sigC _ _, trivial⟩, trivial⟩, by decide⟩,
    ⟨trivial, trivial, trivial, trivial, ok_idE _, ok_idN _, ?_, by decide⟩, trivial⟩, .inr trivial⟩
  · intro n hn; simp only [List.mem_singleton] at hn; subst hn; exact ok_idN _
  · intro p hp; simp only [List.mem_cons, List.not_mem_nil, or_false] at hp
    rcases hp with rfl | rfl
    · simp only [okChoices, okChoice]; exact ⟨⟨_, rfl, ok_idE _⟩, ok_idP _, ok_idP _, trivial⟩
    · simp only [okChoices, okChoice]; exact ⟨⟨_, rfl, ok_idE _⟩, trivial, trivial⟩

example : okConc exConc := ok_exConc

example : ∃ os, visitConcs false [exConc, exConc] = .ok os := by
  obtain ⟨os, h, -⟩ := concs_eval Term.agrees STerm.agrees [exConc, exConc] (by simp only [okConcs]; exact ⟨ok_exConc, ok_exConc, trivial⟩)
  exact ⟨os, h⟩

/-- C87 is violated by `postponed`: postponed processes, calls, assertions and assignments have the AST of the others. -/
theorem C87_violated_postponed (h : Bool) (sens : ProcSens) (ds : List Decl) (ss : List Seq) (n : Name) (c : Expression) (r s : Option Expression)
    (g : Bool) (t : Target) (d : Option Delay) (w : Waveform) :
    visitConc h (.plain none (.process true sens ds ss)) = visitConc h (.plain none (.process false sens ds ss)) ∧
    visitConc h (.plain none (.call true n)) = visitConc h (.plain none (.call false n)) ∧
    visitConc h (.plain none (.assert_ true c r s)) = visitConc h (.plain none (.assert_ false c r s)) ∧
    visitConc h (.plain none (.assign true g t d w)) = visitConc h (.plain none (.assign false g t d w)) := by
  simp [visitConc, visitConcKind]

/-- C87 is violated by `guarded` and by the delay mechanism: they are not in the AST. -/
theorem C87_violated_guarded (h pp : Bool) (t : Target) (d : Delay) (w : Waveform) (c : CondWaves) :
    visitConc h (.plain none (.assign pp true t (some d) w)) = visitConc h (.plain none (.assign pp false t none w)) ∧
    visitConc h (.plain none (.assignCond pp true t (some d) c)) = visitConc h (.plain none (.assignCond pp false t none c)) := by
  simp [visitConc, visitConcKind]

/-- C87 is violated by blocks: guard, generics and ports of a block are not in the AST. -/
theorem C87_violated_block (h : Bool) (l : Str) (g : Option Expression) (gs ps : List Intf) (ds : List Decl) (ss : List Conc) :
    visitConc h (.block l g gs ps ds ss) = visitConc h (.block l none [] [] ds ss) := by
  simp [visitConc]

/-- C87 is violated by selected assignments in which `others` is not last: `with s select d <= a when others, b when x;` is refused. -/
theorem C87_violated_selected_others (h : Bool) (s d a b x : Str) :
    visitConc h (.plain none (.assignSel false false (idE s) false (idT d) none
      [(.elems ⟨idE a, none⟩ [], [.others]), (.elems ⟨idE b, none⟩ [], [.simple (.prim (idP x))])])) =
    .error (.runtime (c! "wrong assign initialization")) := by
  simp [visitConc, visitConcKind, visitSelected, selWaves, selChoices, selDst, idE, idP, idT, visitTarget, visitExpression, visitSimple, visitPrimary, visitName,
    visitNameLit, visitChoices, visitChoice, visitWaveform, visitWaveElem, visitWaveTail, isOthers, mkAssign, bind, Except.bind, pure, Except.pure]

/-- C87 is violated by `case generate` with `others`: the AST has no default, `others` is an ordinary branch (in a `case` statement and
in a selected assignment it is the default). -/
theorem C87_violated_case_generate (s a b : Str) :
    visitConc false (.caseGen (c! "k") (idE s) [.mk none [.others] (.mk [] false [sigC a b])] none) =
    .ok (.case ⟨[c! "k"], true⟩ .NONE .CASE (.id none s) [.mk (.symb none .OTHERS) (.assign {} (.id none a) (.id none b) .null none false)] .null) := by
  simp [visitConc, visitGenAlts, visitGenBody, visitDecls, visitConcs, mkGenBody, sigC, visitConcKind, idE, idP, idT, visitTarget, visitExpression, visitSimple,
    visitPrimary, visitName, visitNameLit, visitChoices, visitChoice, visitWaveform, visitWaveElem, visitWaveTail, mkAssign, pushLabel, Obj.mapInfo,
    bind, Except.bind, pure, Except.pure]

/-- C87 is violated by the labels of the alternatives of an `if generate`: the label of any alternative becomes a label of the whole
statement; which alternative it belongs to (and further labels) cannot be told. -/
theorem C87_violated_alternative_label (h : Bool) (l a : Str) (c d : Expression) (b e : GenBody) :
    visitConc h (.ifGen l (.mk (some a) c b) [.mk none d e] .none none) = visitConc h (.ifGen l (.mk none c b) [.mk (some a) d e] .none none) ∧
    evConc Term.alg STerm.alg (.ifGen l (.mk (some a) c (.mk [] false [])) [.mk none d e] .none none) ≠
      evConc Term.alg STerm.alg (.ifGen l (.mk none c (.mk [] false [])) [.mk (some a) d e] .none none) := by
  constructor
  · simp [visitConc, visitGenCond, visitGenConds, ifGenLabels, GenCond.label, GenElse.label]
  · simp [evConc, evGenCond, evGenConds, evGenElse, evAltLabel, evGenBody, evDecls, evConcs, STerm.alg, STerm.gbody]

/-! ## Component instances -/

/-- C88: an instance of a component, entity or configuration becomes an instance object with the label as name, the instantiated name,
the generic map and the port map, in order. -/
theorem C88_instance {V : Type} (A : Alg V) (leaf : Expr → V) (hA : Agrees A leaf) (h : Bool) (label : Str) (u : InstUnit) (g p : Option (List Assoc))
    (hu : okName u.unit) (hg : okMap g) (hp : okMap p) :
    ∃ n eg ep, visitConc h (.inst label u g p) = .ok (.inst (.id none label) n eg ep) ∧ astEval A leaf n = some (evInstUnit A u) ∧
      astEvals A leaf eg = some (evMap A g) ∧ astEvals A leaf ep = some (evMap A p) := by
  obtain ⟨n, h1, h2, -⟩ := name_eval hA u.unit hu
  obtain ⟨eg, h3, h4⟩ := map_eval hA hg
  obtain ⟨ep, h5, h6⟩ := map_eval hA hp
  refine ⟨n, eg, ep, by simp only [visitConc, visitInst, h1, h3, h5, bind, Except.bind, pure, Except.pure], ?_, h4, h6⟩
  cases u <;> exact h2

/-- C88: the maps have one element per association, whatever the associations are. -/
theorem C88_map_lengths (h : Bool) (label : Str) (u : InstUnit) (g p : Option (List Assoc)) (o : Obj) (ho : visitConc h (.inst label u g p) = .ok o) :
    ∃ n eg ep, o = .inst (.id none label) n eg ep ∧ eg.length = (g.getD []).length ∧ ep.length = (p.getD []).length := by
  have key : ∀ (l : List Assoc) (e : List Expr), visitAssocs l = .ok e → e.length = l.length := by
    intro l
    induction l with
    | nil => intro e he; simp only [visitAssocs] at he; cases he; rfl
    | cons a l ih =>
      intro e he
      simp only [visitAssocs] at he
      obtain ⟨x, -, he⟩ := bind_ok he
      obtain ⟨y, hy, he⟩ := bind_ok he
      cases he
      simp [ih y hy]
  have key' : ∀ (m : Option (List Assoc)) (e : List Expr), visitMap m = .ok e → e.length = (m.getD []).length := by
    intro m e he
    cases m with
    | none => cases he; rfl
    | some l => exact key l e he
  simp only [visitConc, visitInst] at ho
  obtain ⟨n, -, ho⟩ := bind_ok ho
  obtain ⟨eg, hg, ho⟩ := bind_ok ho
  obtain ⟨ep, hp, ho⟩ := bind_ok ho
  cases ho
  exact ⟨n, eg, ep, rfl, key' g eg hg, key' p ep hp⟩

/-- `lbl: entity work.ent(rtl) generic map (x) port map (p => a);` -/
example : okName (InstUnit.entity (.dot (.lit (.ident (c! "work"))) (.lit (.ident (c! "ent")))) (some (c! "rtl"))).unit ∧
    okMap (some [.pos (.desig (.expr (idE (c! "x"))))]) ∧ okMap (some [.named (.lit (.ident (c! "p"))) (.desig (.expr (idE (c! "a"))))]) := by
  refine ⟨?_, ok_exMaps.1, ok_exMaps.2⟩
  simp only [InstUnit.unit, okName]
  exact ⟨⟨_, rfl⟩, _, rfl⟩

example : ∃ o, visitConc false (exInst (.component true (.lit (.ident (c! "comp"))))) = .ok o := by
  obtain ⟨o, h, -⟩ := conc_eval Term.agrees STerm.agrees _ (ok_exInst true)
  exact ⟨o, h⟩

/-- C88 is violated by the kind of the unit and by the architecture: `entity n(a)`, `configuration n` and `component n` have the same
AST, though they instantiate different things. -/
theorem C88_violated_kind (h : Bool) (l : Str) (n : Name) (a : Str) (g p : Option (List Assoc)) :
    visitConc h (.inst l (.entity n (some a)) g p) = visitConc h (.inst l (.component false n) g p) ∧
    visitConc h (.inst l (.config n) g p) = visitConc h (.inst l (.component false n) g p) ∧
    evConc Term.alg STerm.alg (.inst l (.entity n (some a)) g p) ≠ evConc Term.alg STerm.alg (.inst l (.component false n) g p) := by
  refine ⟨?_, ?_, ?_⟩
  · simp [visitConc, visitInst, InstUnit.unit]
  · simp [visitConc, visitInst, InstUnit.unit]
  · simp [evConc, evInstKind, STerm.alg, STerm.instKind]

/-! ## Design files -/

/-- C89 (supported fragment): the objects of a design file mean the library clauses, use clauses, entities, architectures and packages
of the file, in order. Missing: what `okDesignUnit` leaves out, see the `C89_violated` theorems. -/
theorem C89_file_meaning_partial {V S : Type} (A : Alg V) (B : SAlg V S) (leaf : Expr → V) (hA : Agrees A leaf) (hB : SAgrees B leaf)
    (l : List DesignUnit) (h : ∀ u ∈ l, okDesignUnit u) :
    ∃ os, visitDesignFile false l = .ok os ∧ astTops A B leaf os = some (evDesignFile A B l) :=
  designFile_eval hA hB l h

/-- C89: no two design files with different meanings have the same AST. -/
theorem C89_file_injective_partial (x y : List DesignUnit) (hx : ∀ u ∈ x, okDesignUnit u) (hy : ∀ u ∈ y, okDesignUnit u)
    (h : visitDesignFile false x = visitDesignFile false y) : evDesignFile Term.alg STerm.alg x = evDesignFile Term.alg STerm.alg y := by
  obtain ⟨e, h1, h2⟩ := designFile_eval Term.agrees STerm.agrees x hx
  obtain ⟨f, h3, h4⟩ := designFile_eval Term.agrees STerm.agrees y hy
  rw [h1, h3] at h
  cases h
  exact Option.some.inj (h2.symm.trans h4)

/-- C89: the objects of a file are the objects of its units, one unit after the other; the AST of a file depends on the units only. -/
theorem C89_file_append (h : Bool) (x y : List DesignUnit) (os ps : List Obj) (hx : visitDesignFile h x = .ok os) (hy : visitDesignFile h y = .ok ps) :
    visitDesignFile h (x ++ y) = .ok (os ++ ps) := by
  induction x generalizing os with
  | nil => cases hx; exact hy
  | cons u x ih =>
    simp only [visitDesignFile] at hx
    obtain ⟨a, ha, hx⟩ := bind_ok hx
    obtain ⟨b, hb, hx⟩ := bind_ok hx
    cases hx
    simp only [List.cons_append, visitDesignFile, ha, ih b hb, bind, Except.bind, pure, Except.pure, List.append_assoc]

/--
```
library ieee;
use ieee.std_logic_1164.all;
entity e is port (a, b : in T; signal c : out T := x); end e;
architecture rtl of e is <exDecls> begin <exConc> end;
package p is constant k : T := x; end p;
``` -/
def exFile : List DesignUnit :=
  [⟨[.library [c! "ieee"], .use [⟨c! "ieee", [.lit (.ident (c! "std_logic_1164")), .all]⟩]], .entity (c! "e") [] exPorts [] []⟩,
   ⟨[], .arch (c! "rtl") (.lit (.ident (c! "e"))) exDecls [exConc]⟩,
   ⟨[], .package (c! "p") [] [.constant ⟨[c! "k"], idS (c! "T"), some (idE (c! "x"))⟩]⟩]

theorem ok_exFile : ∀ u ∈ exFile, okDesignUnit u := by
  intro u hu
  simp only [exFile, List.mem_cons, List.not_mem_nil, or_false] at hu
  rcases hu with rfl | rfl | rfl
  · refine ⟨?_, fun _ h => (by cases h), ok_exPorts, trivial, rfl⟩
    intro i hi; simp only [List.mem_cons, List.not_mem_nil, or_false] at hi
    rcases hi with rfl | rfl
    · trivial
    · intro n hn; simp only [List.mem_singleton] at hn; subst hn
      intro s hs; simp only [List.mem_cons, List.not_mem_nil, or_false] at hs
      rcases hs with rfl | rfl
      · exact ⟨_, rfl⟩
      · trivial
  · refine ⟨fun _ h => (by cases h), ok_idN _, ok_exDecls, ?_⟩
    simp only [okConcs]; exact ⟨ok_exConc, trivial⟩
  · refine ⟨fun _ h => (by cases h), rfl, ?_⟩
    simp only [okDecls, okDecl]; exact ⟨ok_vars _ _ (some _), trivial⟩

example : ∀ u ∈ exFile, okDesignUnit u := ok_exFile

theorem exFile_ok : ∃ os, visitDesignFile false exFile = .ok os := by
  obtain ⟨os, h, -⟩ := designFile_eval Term.agrees STerm.agrees exFile ok_exFile
  exact ⟨os, h⟩

example : ∃ os ps, visitDesignFile false exFile = .ok os ∧ visitDesignFile false exFile = .ok ps := by
  obtain ⟨os, h⟩ := exFile_ok
  exact ⟨os, os, h, h⟩

/-- C89 is violated by configurations, instantiations of packages, context declarations and context references: they are not in the
AST. The rest of the file is converted as if they were not there. -/
theorem C89_violated_dropped (h : Bool) (n : Str) (r : List SelName) (l : List DesignUnit) :
    visitDesignFile h (⟨[], .config n⟩ :: l) = visitDesignFile h l ∧ visitDesignFile h (⟨[], .packageInst n⟩ :: l) = visitDesignFile h l ∧
    visitDesignFile h (⟨[], .context n⟩ :: l) = visitDesignFile h l ∧
    ∀ c u, visitDesignFile h (⟨.contextRef r :: c, u⟩ :: l) = visitDesignFile h (⟨c, u⟩ :: l) := by
  refine ⟨?_, ?_, ?_, fun c u => ?_⟩ <;>
    simp only [visitDesignFile, visitDesignUnit, visitContextItems, visitContextItem, visitLibUnit, bind, Except.bind, pure, Except.pure, List.nil_append]
  · cases visitDesignFile h l <;> rfl
  · cases visitDesignFile h l <;> rfl
  · cases visitDesignFile h l <;> rfl
  · cases visitContextItems c <;> rfl

/-- C89 is violated by statements in entities: they are not in the AST. -/
theorem C89_violated_entity_statements (h : Bool) (n : Str) (g p : List Intf) (ds : List Decl) (ss : List Conc) :
    visitLibUnit h (.entity n g p ds ss) = visitLibUnit h (.entity n g p ds []) := rfl

/-- C89 is violated by generic packages: the generics are not in the AST. -/
theorem C89_violated_package_generics (h : Bool) (n : Str) (g : List Intf) (l : List Decl) :
    visitLibUnit h (.package n g l) = visitLibUnit h (.package n [] l) := by
  simp [visitLibUnit, visitDecl]

/-! ## `hierarchyOnly` -/

theorem instsL_append (l m : List Obj) : instsL (l ++ m) = instsL l ++ instsL m := by
  induction l with
  | nil => simp [instsL]
  | cons o l ih => simp [instsL, ih]

theorem instsB_append (l m : List Branch) : instsB (l ++ m) = instsB l ++ instsB m := by
  induction l with
  | nil => simp [instsB]
  | cons o l ih => cases o; simp [instsB, ih]

theorem insts_mapInfo (f : StmInfo → StmInfo) (o : Obj) : insts (o.mapInfo f) = insts o := by
  cases o <;> simp [Obj.mapInfo, insts]

theorem instsL_zero {l : List Obj} (h : ∀ o ∈ l, insts o = []) : instsL l = [] := by
  induction l with
  | nil => simp [instsL]
  | cons o l ih => simp [instsL, h o (by simp), ih fun p hp => h p (by simp [hp])]

theorem use_insts : ∀ (l : List SelName) (os : List Obj), visitUse l = .ok os → ∀ o ∈ os, insts o = []
  | [], os, h => by cases h; simp
  | n :: l, os, h => by
    simp only [visitUse] at h
    obtain ⟨a, -, h⟩ := bind_ok h
    obtain ⟨b, hb, h⟩ := bind_ok h
    cases h
    intro o ho
    simp only [List.mem_cons] at ho
    rcases ho with rfl | ho
    · simp [insts]
    · exact use_insts l b hb o ho

theorem type_insts {n : Str} {t : TypeDef} {o : Obj} (h : visitTypeDef n t = .ok o) : insts o = [] := by
  cases t <;> simp only [visitTypeDef] at h <;>
    first
    | (cases h; simp [typeDef, insts])
    | (obtain ⟨_, -, h⟩ := bind_ok h; cases h; simp [typeDef, insts])
    | (obtain ⟨_, -, h⟩ := bind_ok h; obtain ⟨_, -, h⟩ := bind_ok h; cases h; simp [typeDef, insts])

mutual
/-- Declarations that convert also convert with `hierarchyOnly`, and contain no instances. -/
theorem decl_hier : ∀ (d : Decl) (os : List Obj), visitDecl false d = .ok os →
    (∃ os', visitDecl true d = .ok os' ∧ ∀ o ∈ os', insts o = []) ∧ ∀ o ∈ os, insts o = []
  | .subprogram s, os, h => by
    simp only [visitDecl] at h ⊢
    obtain ⟨f, hf, h⟩ := bind_ok h
    cases h
    exact ⟨⟨_, by simp only [hf, bind, Except.bind, pure, Except.pure]; rfl, by simp [insts]⟩, by simp [insts]⟩
  | .subInst _, os, h => by simp only [visitDecl] at h ⊢; cases h; simp
  | .package n g l, os, h => by
    simp only [visitDecl, Bool.false_eq_true, if_false] at h ⊢
    obtain ⟨f, hf, h⟩ := bind_ok h
    cases h
    exact ⟨⟨_, rfl, by simp [insts]⟩, by simp [insts]⟩
  | .packageInst _, os, h => by simp only [visitDecl] at h ⊢; cases h; simp
  | .typeIncomplete _, os, h => by simp only [visitDecl] at h ⊢; cases h; simp [typeDef, insts]
  | .type n t, os, h => by
    simp only [visitDecl] at h ⊢
    obtain ⟨f, hf, h⟩ := bind_ok h
    cases h
    exact ⟨⟨_, by simp only [hf, bind, Except.bind, pure, Except.pure]; rfl, by simp [type_insts hf]⟩, by simp [type_insts hf]⟩
  | .subtype _ s, os, h => by
    simp only [visitDecl] at h ⊢
    obtain ⟨f, hf, h⟩ := bind_ok h
    cases h
    exact ⟨⟨_, by simp only [hf, bind, Except.bind, pure, Except.pure]; rfl, by simp [insts]⟩, by simp [insts]⟩
  | .constant v, os, h => by
    simp only [visitDecl] at h ⊢
    obtain ⟨f, hf, h⟩ := bind_ok h
    cases h
    exact ⟨⟨_, by simp only [hf, bind, Except.bind, pure, Except.pure]; rfl, by simp [insts]⟩, by simp [insts]⟩
  | .variable _ v, os, h => by
    simp only [visitDecl] at h ⊢
    obtain ⟨f, hf, h⟩ := bind_ok h
    cases h
    exact ⟨⟨_, by simp only [hf, bind, Except.bind, pure, Except.pure]; rfl, by simp [insts]⟩, by simp [insts]⟩
  | .signal v _, os, h => by
    simp only [visitDecl] at h ⊢
    obtain ⟨f, hf, h⟩ := bind_ok h
    cases h
    exact ⟨⟨_, by simp only [hf, bind, Except.bind, pure, Except.pure]; rfl, by simp [insts]⟩, by simp [insts]⟩
  | .file _ _, os, h => by simp only [visitDecl] at h ⊢; cases h; simp
  | .alias_ d t n sg, os, h => by
    simp only [visitDecl] at h ⊢
    obtain ⟨f, hf, h⟩ := bind_ok h
    obtain ⟨g, hg, h⟩ := bind_ok h
    cases h
    exact ⟨⟨_, by simp only [hf, hg, bind, Except.bind, pure, Except.pure]; rfl, by simp [insts]⟩, by simp [insts]⟩
  | .attrDecl _, os, h => by simp only [visitDecl] at h ⊢; cases h; simp
  | .attrSpec _, os, h => by simp only [visitDecl] at h ⊢; cases h; simp
  | .use l, os, h => by
    simp only [visitDecl] at h ⊢
    exact ⟨⟨os, h, use_insts l os h⟩, use_insts l os h⟩
  | .groupTemplate _, os, h => by simp only [visitDecl] at h ⊢; cases h; simp
  | .group _, os, h => by simp only [visitDecl] at h ⊢; cases h; simp
  | .disconnect, os, h => by simp only [visitDecl] at h ⊢; cases h; simp
  | .subBody s ds ss, os, h => by
    simp only [visitDecl] at h ⊢
    obtain ⟨f, hf, h⟩ := bind_ok h
    obtain ⟨g, hg, h⟩ := bind_ok h
    obtain ⟨k, hk, h⟩ := bind_ok h
    cases h
    obtain ⟨⟨g', hg', -⟩, -⟩ := decls_hier ds g hg
    exact ⟨⟨_, by simp only [hf, hg', hk, bind, Except.bind, pure, Except.pure]; rfl, by simp [insts]⟩, by simp [insts]⟩
  | .packageBody n l, os, h => by
    simp only [visitDecl, Bool.false_eq_true, if_false] at h ⊢
    obtain ⟨f, hf, h⟩ := bind_ok h
    cases h
    exact ⟨⟨_, rfl, by simp [insts]⟩, by simp [insts]⟩
  | .component n g p, os, h => by
    simp only [visitDecl, visitIntfsH, Bool.false_eq_true, if_false] at h ⊢
    obtain ⟨f, hf, h⟩ := bind_ok h
    obtain ⟨k, hk, h⟩ := bind_ok h
    cases h
    exact ⟨⟨_, rfl, by simp [insts]⟩, by simp [insts]⟩
  | .configSpec, os, h => by simp only [visitDecl] at h ⊢; cases h; simp
theorem decls_hier : ∀ (l : List Decl) (os : List Obj), visitDecls false l = .ok os →
    (∃ os', visitDecls true l = .ok os' ∧ ∀ o ∈ os', insts o = []) ∧ ∀ o ∈ os, insts o = []
  | [], os, h => by simp only [visitDecls] at h ⊢; cases h; simp
  | d :: l, os, h => by
    simp only [visitDecls] at h ⊢
    obtain ⟨a, ha, h⟩ := bind_ok h
    obtain ⟨b, hb, h⟩ := bind_ok h
    cases h
    obtain ⟨⟨a', h1, h2⟩, h3⟩ := decl_hier d a ha
    obtain ⟨⟨b', h4, h5⟩, h6⟩ := decls_hier l b hb
    refine ⟨⟨a' ++ b', by simp only [h1, h4, bind, Except.bind, pure, Except.pure], ?_⟩, ?_⟩
    · intro o ho; rcases List.mem_append.1 ho with ho | ho
      · exact h2 o ho
      · exact h5 o ho
    · intro o ho; rcases List.mem_append.1 ho with ho | ho
      · exact h3 o ho
      · exact h6 o ho
end

theorem mkAssign_insts {d s dl : Expr} {ev : Option (List Expr)} {b : Bool} {o : Obj} (h : mkAssign d s dl ev b = .ok o) : insts o = [] := by
  unfold mkAssign at h
  split at h
  · cases h
  · cases h
  · cases h; simp [insts]

theorem conckind_hier {k : ConcKind} {o : Obj} (h : visitConcKind false k = .ok o) :
    ∃ o', visitConcKind true k = .ok o' ∧ insts o' = insts o := by
  cases k with
  | process pp sens ds ss =>
    simp only [visitConcKind, visitProcess] at h ⊢
    obtain ⟨r, hr, h⟩ := bind_ok h
    obtain ⟨a, ha, h⟩ := bind_ok h
    obtain ⟨b, hb, h⟩ := bind_ok h
    cases h
    obtain ⟨⟨a', ha', -⟩, -⟩ := decls_hier ds a ha
    exact ⟨_, by simp only [hr, ha', hb, bind, Except.bind, pure, Except.pure]; rfl, by simp [insts]⟩
  | call pp n => exact ⟨o, by simpa [visitConcKind] using h, rfl⟩
  | assert_ pp c r s => exact ⟨o, by simpa [visitConcKind] using h, rfl⟩
  | assign pp g t d w => exact ⟨o, by simpa [visitConcKind] using h, rfl⟩
  | assignCond pp g t d c => exact ⟨o, by simpa [visitConcKind] using h, rfl⟩
  | assignSel pp g e q t d l => exact ⟨o, by simpa [visitConcKind] using h, rfl⟩

theorem insts_mkGenBody (ds : List Decl) (bg : Bool) (l : List Obj) : insts (mkGenBody ds bg l) = instsL l := by
  unfold mkGenBody
  split
  · simp [instsL]
  · simp [insts]

theorem instsB_map {b b' : Obj} (h : insts b' = insts b) : ∀ ch : List Expr, instsB (ch.map fun c => .mk c b') = instsB (ch.map fun c => .mk c b)
  | [] => rfl
  | c :: l => by simp [instsB, h, instsB_map h l]

mutual
/-- The instances inside a concurrent statement are the same with `hierarchyOnly`. -/
theorem conc_hier : ∀ (c : Conc) (o : Obj), visitConc false c = .ok o → ∃ o', visitConc true c = .ok o' ∧ insts o' = insts o
  | .plain none s, o, h => by
    simp only [visitConc] at h ⊢
    exact conckind_hier h
  | .plain (some l) s, o, h => by
    simp only [visitConc] at h ⊢
    obtain ⟨a, ha, h⟩ := bind_ok h
    cases h
    obtain ⟨a', h1, h2⟩ := conckind_hier ha
    exact ⟨_, by simp only [h1, bind, Except.bind, pure, Except.pure]; rfl, by simp [pushLabel, insts_mapInfo, h2]⟩
  | .block label g gs ps ds ss, o, h => by
    simp only [visitConc] at h ⊢
    obtain ⟨a, ha, h⟩ := bind_ok h
    obtain ⟨b, hb, h⟩ := bind_ok h
    cases h
    obtain ⟨⟨a', h1, h2⟩, h3⟩ := decls_hier ds a ha
    obtain ⟨b', h4, h5⟩ := concs_hier ss b hb
    exact ⟨_, by simp only [h1, h4, bind, Except.bind, pure, Except.pure]; rfl,
      by simp [pushLabel, insts_mapInfo, insts, instsL_append, instsL_zero h2, instsL_zero h3, h5]⟩
  | .inst label u g p, o, h => ⟨o, by simpa [visitConc] using h, rfl⟩
  | .forGen label i d b endl, o, h => by
    simp only [visitConc] at h ⊢
    obtain ⟨e, he, h⟩ := bind_ok h
    obtain ⟨a, ha, h⟩ := bind_ok h
    cases h
    obtain ⟨a', h1, h2⟩ := gbody_hier b a ha
    refine ⟨_, by simp only [he, h1, bind, Except.bind, pure, Except.pure]; rfl, ?_⟩
    cases endl <;> simp [pushLabel, appendLabel, insts_mapInfo, insts, h2]
  | .ifGen label c el f endl, o, h => by
    simp only [visitConc] at h ⊢
    obtain ⟨r, hr, h⟩ := bind_ok h
    obtain ⟨a, ha, h⟩ := bind_ok h
    obtain ⟨b, hb, h⟩ := bind_ok h
    cases h
    obtain ⟨r', h1, -, h2⟩ := gcond_hier c r hr
    obtain ⟨a', h3, h4⟩ := gconds_hier el a ha
    obtain ⟨b', h5, h6⟩ := gelse_hier f b hb
    exact ⟨_, by simp only [h1, h3, h5, bind, Except.bind, pure, Except.pure]; rfl, by simp [pushLabel, insts_mapInfo, insts, h2, h4, h6]⟩
  | .caseGen label e alts _, o, h => by
    simp only [visitConc] at h ⊢
    obtain ⟨r, hr, h⟩ := bind_ok h
    obtain ⟨a, ha, h⟩ := bind_ok h
    cases h
    obtain ⟨a', h3, h4⟩ := galts_hier alts a ha
    exact ⟨_, by simp only [hr, h3, bind, Except.bind, pure, Except.pure]; rfl, by simp [pushLabel, insts_mapInfo, insts, h4]⟩
theorem concs_hier : ∀ (l : List Conc) (os : List Obj), visitConcs false l = .ok os → ∃ os', visitConcs true l = .ok os' ∧ instsL os' = instsL os
  | [], os, h => ⟨os, by simpa [visitConcs] using h, rfl⟩
  | c :: l, os, h => by
    simp only [visitConcs] at h ⊢
    obtain ⟨a, ha, h⟩ := bind_ok h
    obtain ⟨b, hb, h⟩ := bind_ok h
    cases h
    obtain ⟨a', h1, h2⟩ := conc_hier c a ha
    obtain ⟨b', h3, h4⟩ := concs_hier l b hb
    exact ⟨_, by simp only [h1, h3, bind, Except.bind, pure, Except.pure]; rfl, by simp [instsL, h2, h4]⟩
theorem gcond_hier : ∀ (c : GenCond) (r : Expr × Obj), visitGenCond false c = .ok r →
    ∃ r', visitGenCond true c = .ok r' ∧ r'.1 = r.1 ∧ insts r'.2 = insts r.2
  | .mk l c b, r, h => by
    simp only [visitGenCond] at h ⊢
    obtain ⟨e, he, h⟩ := bind_ok h
    obtain ⟨a, ha, h⟩ := bind_ok h
    cases h
    obtain ⟨a', h1, h2⟩ := gbody_hier b a ha
    exact ⟨(e, a'), by simp only [he, h1, bind, Except.bind, pure, Except.pure], rfl, h2⟩
theorem gconds_hier : ∀ (l : List GenCond) (bs : List Branch), visitGenConds false l = .ok bs →
    ∃ bs', visitGenConds true l = .ok bs' ∧ instsB bs' = instsB bs
  | [], bs, h => ⟨bs, by simpa [visitGenConds] using h, rfl⟩
  | c :: l, bs, h => by
    simp only [visitGenConds] at h ⊢
    obtain ⟨a, ha, h⟩ := bind_ok h
    obtain ⟨b, hb, h⟩ := bind_ok h
    cases h
    obtain ⟨a', h1, -, h2⟩ := gcond_hier c a ha
    obtain ⟨b', h3, h4⟩ := gconds_hier l b hb
    exact ⟨_, by simp only [h1, h3, bind, Except.bind, pure, Except.pure]; rfl, by simp [instsB, h2, h4]⟩
theorem gelse_hier : ∀ (f : GenElse) (o : Obj), visitGenElse false f = .ok o → ∃ o', visitGenElse true f = .ok o' ∧ insts o' = insts o
  | .none, o, h => ⟨o, by simpa [visitGenElse] using h, rfl⟩
  | .some l b, o, h => by
    simp only [visitGenElse] at h ⊢
    exact gbody_hier b o h
theorem galts_hier : ∀ (l : List GenAlt) (bs : List Branch), visitGenAlts false l = .ok bs →
    ∃ bs', visitGenAlts true l = .ok bs' ∧ instsB bs' = instsB bs
  | [], bs, h => ⟨bs, by simpa [visitGenAlts] using h, rfl⟩
  | .mk lb ch b :: l, bs, h => by
    simp only [visitGenAlts] at h ⊢
    obtain ⟨el, hel, h⟩ := bind_ok h
    obtain ⟨a, ha, h⟩ := bind_ok h
    obtain ⟨r, hr, h⟩ := bind_ok h
    cases h
    obtain ⟨r', h3, h4⟩ := galts_hier l r hr
    cases el with
    | nil =>
      cases ha
      exact ⟨r', by simp only [hel, h3, bind, Except.bind, pure, Except.pure]; rfl, by simpa using h4⟩
    | cons e el =>
      obtain ⟨x, hx, ha⟩ := bind_ok ha
      cases ha
      obtain ⟨x', h1, h2⟩ := gbody_hier b x hx
      exact ⟨_, by simp only [hel, h1, h3, bind, Except.bind, pure, Except.pure]; rfl, by
        rw [instsB_append, instsB_append, instsB_map h2, h4]⟩
theorem gbody_hier : ∀ (b : GenBody) (o : Obj), visitGenBody false b = .ok o → ∃ o', visitGenBody true b = .ok o' ∧ insts o' = insts o
  | .mk ds bg ss, o, h => by
    simp only [visitGenBody] at h ⊢
    obtain ⟨a, ha, h⟩ := bind_ok h
    obtain ⟨b, hb, h⟩ := bind_ok h
    cases h
    obtain ⟨⟨a', h1, h2⟩, h3⟩ := decls_hier ds a ha
    obtain ⟨b', h4, h5⟩ := concs_hier ss b hb
    exact ⟨_, by simp only [h1, h4, bind, Except.bind, pure, Except.pure]; rfl,
      by simp [insts_mkGenBody, instsL_append, instsL_zero h2, instsL_zero h3, h5]⟩
end

theorem hier_append (l m : List Obj) : hier (l ++ m) = hier l ++ hier m := by
  induction l with
  | nil => simp [hier]
  | cons o l ih => cases o <;> simp [hier, ih]

theorem libUnit_hier {u : LibUnit} {os : List Obj} (h : visitLibUnit false u = .ok os) : ∃ os', visitLibUnit true u = .ok os' ∧ hier os' = hier os := by
  cases u with
  | entity n g p ds ss =>
    simp only [visitLibUnit, visitIntfsH, Bool.false_eq_true, if_false] at h ⊢
    obtain ⟨a, ha, h⟩ := bind_ok h
    obtain ⟨b, hb, h⟩ := bind_ok h
    obtain ⟨c, hc, h⟩ := bind_ok h
    cases h
    exact ⟨_, rfl, rfl⟩
  | package n g l =>
    simp only [visitLibUnit, visitDecl, Bool.false_eq_true, if_false] at h ⊢
    obtain ⟨a, ha, h⟩ := bind_ok h
    cases h
    exact ⟨_, rfl, rfl⟩
  | packageBody n l =>
    simp only [visitLibUnit, visitDecl, Bool.false_eq_true, if_false] at h ⊢
    obtain ⟨a, ha, h⟩ := bind_ok h
    cases h
    exact ⟨_, rfl, rfl⟩
  | arch n e ds ss =>
    simp only [visitLibUnit, Bool.false_eq_true, if_false] at h ⊢
    obtain ⟨a, ha, h⟩ := bind_ok h
    obtain ⟨b, hb, h⟩ := bind_ok h
    obtain ⟨c, hc, h⟩ := bind_ok h
    cases h
    obtain ⟨c', h1, h2⟩ := concs_hier ss c hc
    obtain ⟨-, h3⟩ := decls_hier ds b hb
    exact ⟨_, by simp only [ha, h1, bind, Except.bind, pure, Except.pure, if_true]; rfl, by simp [hier, instsL_append, instsL_zero h3, h2]⟩
  | config n => exact ⟨os, h, rfl⟩
  | packageInst n => exact ⟨os, h, rfl⟩
  | context n => exact ⟨os, h, rfl⟩

/-- C90: whenever a file can be converted, it can be converted with `hierarchyOnly`, and the result says the same about the hierarchy:
libraries, used names, entities, architectures with their entities and all their component instances, packages. -/
theorem C90_hierarchy_only (l : List DesignUnit) (os : List Obj) (h : visitDesignFile false l = .ok os) :
    ∃ os', visitDesignFile true l = .ok os' ∧ hier os' = hier os := by
  induction l generalizing os with
  | nil => exact ⟨os, h, rfl⟩
  | cons u l ih =>
    simp only [visitDesignFile, visitDesignUnit] at h ⊢
    obtain ⟨a, ha, h⟩ := bind_ok h
    obtain ⟨b, hb, h⟩ := bind_ok h
    cases h
    obtain ⟨c, hc, ha⟩ := bind_ok ha
    obtain ⟨d, hd, ha⟩ := bind_ok ha
    cases ha
    obtain ⟨d', h1, h2⟩ := libUnit_hier hd
    obtain ⟨b', h3, h4⟩ := ih b hb
    exact ⟨_, by simp only [hc, h1, h3, bind, Except.bind, pure, Except.pure]; rfl, by simp [hier_append, h2, h4]⟩

example : ∃ os, visitDesignFile false exFile = .ok os := exFile_ok

/-- C90: with `hierarchyOnly` the generics, ports and declarations of entities and the contents of packages are left out. They are not
even looked at: the conversion of an entity or package does not fail. -/
theorem C90_no_details (n : Str) (g p : List Intf) (ds : List Decl) (ss : List Conc) :
    visitLibUnit true (.entity n g p ds ss) = .ok [.modDec n [] [] []] ∧
    visitLibUnit true (.package n g ds) = .ok [.idspace n true []] ∧ visitLibUnit true (.packageBody n ds) = .ok [.idspace n false []] := by
  refine ⟨rfl, ?_, ?_⟩ <;> simp [visitLibUnit, visitDecl, bind, Except.bind, pure, Except.pure]

/-- C90: with `hierarchyOnly` an architecture consists of its statements, none of its declarations is looked at. -/
theorem C90_architecture (n : Str) (e : Name) (ds : List Decl) (ss : List Conc) :
    visitLibUnit true (.arch n e ds ss) = visitLibUnit true (.arch n e [] ss) := rfl

end Verif.Vhdl
