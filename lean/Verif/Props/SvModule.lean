import Verif.SvModuleLemmas
import Verif.Props.SvList
/-!
# Meaning of SystemVerilog modules (C74), gates (C75), generate constructs (C76), instances (C77), tasks and functions (C78)
-/
namespace Verif.Sv
open Verif Verif.Spec.Sv

/-! ## Items as terms, for the examples and for different meanings -/

/-- Terms for items. -/
inductive MTerm
  | stm (s : STerm)
  | inst (n m : Term) (ps : List Term) (cs : List (Conn Term))
  | gate (g : NGate) (n : Option Term) (o : Term) (l : List Term)
  | assign (d s : Term)
  | initial (s : STerm)
  | always (t : Trigger) (evs : Option (List (Ev Term))) (s : STerm)
  | fn (static task : Bool) (n t : Term) (ps : List (Port Term)) (l : List STerm)
  | for_ (d : Bool) (n i c s : Term) (b : MTerm)
  | if_ (c : Term) (t : MTerm) (f : List MTerm)
  | case (v : Term) (vs : List Term) (bs ds : List MTerm)
  | block (n : Option Term) (l : List MTerm)
  | module_ (n : Term) (gs : List STerm) (ps : List (Port Term)) (l : List MTerm)
  | other (s : String)

/-- Blocks of one item without name are left out. -/
def MTerm.mkBlock : Option Term → List MTerm → MTerm
  | none, [m] => m
  | n, l => .block n l

/-- The term algebra: the meaning of an item is the item itself, with converted tokens. -/
def MTerm.alg : MAlg Term STerm MTerm where
  stm := .stm
  inst := .inst
  gate := .gate
  assign := .assign
  initial := .initial
  always := .always
  fn := .fn
  for_ := .for_
  if_ c t f := .if_ c t f.toList
  case v l d := .case v (l.map (·.1)) (l.map (·.2)) d.toList
  block := MTerm.mkBlock
  module_ := .module_
  other := .other

theorem MTerm.agrees : MAgrees MTerm.alg where
  one _ := rfl

/-! ## Modules -/

section
variable {V S M : Type} (A : Alg V) (B : SAlg V S) (N : MAlg V S M) (leaf : Expr → V) (hA : Agrees A leaf) (hB : SAgrees A B) (hN : MAgrees N)
include hA hB hN

/-- C74 (supported fragment): the converted module has the meaning of the module: name, parameters, ports and items in order, whatever
expressions, statements and items mean. Missing: what `okMod` leaves out, see the `C74_violated`, ..., `C78_violated`, `C80_violated`
theorems; variables with the name of a port (C80). -/
theorem C74_module_meaning_partial (x : Mod) (h : okMod x) : ∃ o, visitMod x = .ok o ∧ astItem A B N leaf o = some (evMod A B N x) := by
  obtain ⟨o, h1, h2, _⟩ := mod_eval hA hB hN x h
  exact ⟨o, h1, h2⟩

/-- C74 for a source text: the objects are the modules in order. -/
theorem C74_source_meaning_partial (l : List Mod) (h : ∀ x ∈ l, okMod x) :
    ∃ os, visitSource (l.map .module_) = .ok os ∧ astItems A B N leaf os = some (l.map (evMod A B N)) := by
  induction l with
  | nil => exact ⟨[], rfl, by simp only [astItems, List.map_nil]⟩
  | cons x l ih =>
    obtain ⟨os, h1, h2⟩ := ih fun y hy => h y (.tail _ hy)
    obtain ⟨o, h3, h4, _⟩ := mod_eval hA hB hN x (h x (.head _))
    exact ⟨o :: os, by simp only [List.map_cons, visitSource, h1, h3, bind, Except.bind, pure, Except.pure],
      by simp only [astItems, h2, h4, List.map_cons, Option.bind_eq_bind, Option.bind_some, pure]⟩

/-- C76 (supported fragment): the objects of an item of a generate construct or module have the meaning of the item. A generate region is
its items. Missing: what `okGItem` leaves out, see the `C76_violated` theorems. -/
theorem C76_generate_meaning_partial (x : GItem) (h : okGItem x) :
    ∃ os, visitGItem x = .ok os ∧ astItems A B N leaf os = some (evGItem A B N x) := by
  obtain ⟨o, h1, h2, _⟩ := gItem_eval hA hB hN x h
  exact ⟨o, h1, h2⟩
end

/-- C74: no two modules with different meanings have the same AST (up to blocks of one item without name). -/
theorem C74_module_injective_partial (x y : Mod) (hx : okMod x) (hy : okMod y) (h : visitMod x = visitMod y) :
    evMod Term.alg STerm.alg MTerm.alg x = evMod Term.alg STerm.alg MTerm.alg y := by
  obtain ⟨e, h1, h2, _⟩ := mod_eval Term.agrees STerm.agrees MTerm.agrees x hx
  obtain ⟨f, h3, h4, _⟩ := mod_eval Term.agrees STerm.agrees MTerm.agrees y hy
  rw [h1, h3] at h
  cases h
  exact Option.some.inj (h2.symm.trans h4)

/-- C76: no two items with different meanings have the same AST. -/
theorem C76_generate_injective_partial (x y : GItem) (hx : okGItem x) (hy : okGItem y) (h : visitGItem x = visitGItem y) :
    evGItem Term.alg STerm.alg MTerm.alg x = evGItem Term.alg STerm.alg MTerm.alg y := by
  obtain ⟨e, h1, h2, _⟩ := gItem_eval Term.agrees STerm.agrees MTerm.agrees x hx
  obtain ⟨f, h3, h4, _⟩ := gItem_eval Term.agrees STerm.agrees MTerm.agrees y hy
  rw [h1, h3] at h
  cases h
  exact Option.some.inj (h2.symm.trans h4)

section
variable {V S M : Type} (A : Alg V) (B : SAlg V S) (N : MAlg V S M) (leaf : Expr → V) (hA : Agrees A leaf)
include hA

/-- C75 (supported fragment): n-input gates are instances of the gate with output and inputs in order, `buf` and `not` are assignments.
Missing: what `okGate` leaves out, see the `C75_violated` theorems. -/
theorem C75_gate_meaning_partial (g : Gate) (h : okGate g) :
    ∃ os, visitGate g = .ok os ∧ astItems A B N leaf os = some (evGate A N g) := gate_eval hA g h

/-- C77 (supported fragment): an instance has its name with dimensions, its module, the parameters and the connections in order.
Missing: what `okInst` leaves out, see the `C77_violated` theorems. -/
theorem C77_instance_meaning_partial (m : ModInst) (h : okInst m) :
    ∃ os, visitModInst m = .ok os ∧ astItems A B N leaf os = some (evInst A N m) := modInst_eval hA m h

/-- C78 (supported fragment): a task or function has its name, lifetime, type, arguments, declarations and statements in order.
Missing: what `okTf` leaves out, see the `C78_violated` theorems and C66. -/
theorem C78_function_meaning_partial (hB : SAgrees A B) (d : TfDef) (h : okTf d) :
    ∃ o, visitTfDef d = .ok o ∧ astItem A B N leaf o = some (evTf A B N d) := by
  obtain ⟨o, h1, h2, _⟩ := tf_eval hA hB d h
  exact ⟨o, h1, h2⟩
end

/-! ## An example -/

/--
```
module m #(parameter P = x) (input clk, output logic [W:Z] q, r);
  wire n;
  assign n = clk;
  and g (n, a, b);
  sub #(P) u (.c(clk), .d());
  always_ff @(posedge clk) q = n;
  function automatic logic [W:Z] f(input logic [W:Z] i); b = c; endfunction
  generate
    if (P) begin : blk initial b = c; end
    else for (genvar i = x; y; i++) ;
  endgenerate
endmodule
``` -/
def exMod : Mod := .mk false ⟨idI (c! "m"), some (.decls [.param (.val none [⟨idI (c! "P"), [], some (.mtm (.one (idE (c! "x"))))⟩])])⟩
  (.list (.ansi [.decl (.dir .input none) (idI (c! "clk")) [] none,
    .decl (.dir .output (some (.type (.type exVec)))) (idI (c! "q")) [] none, .decl .none (idI (c! "r")) [] none]))
  [.item (.net (.net (c! "wire") false none [⟨idI (c! "n"), [], none⟩])),
   .item (.assign [(idT (c! "n"), idE (c! "clk"))]),
   .item (.gate (.nIn .and [⟨some (idI (c! "g"), []), idT (c! "n"), [idE (c! "a"), idE (c! "b")]⟩])),
   .item (.inst ⟨idI (c! "sub"), .ordered [.mtm (.one (idE (c! "P")))],
     [⟨idI (c! "u"), [], .named [.val (idI (c! "c")) (idE (c! "clk")), .empty (idI (c! "d"))]⟩]⟩),
   .item (.always .ff (.mk none (.timing (.event (.events [.ev (some .posedge) (idE (c! "clk")) none])) (asg (c! "q") (c! "n"))))),
   .item (.tf (.function (some .automatic) (.type exVec) ⟨none, idI (c! "f"),
     .ports [⟨some (.dir .input), false, some (.type exVec), some (idI (c! "i")), [], none⟩] [], [asg (c! "b") (c! "c")]⟩)),
   .region [.item (.ifElse (idE (c! "P")) (.block none (some (idI (c! "blk"))) [.item (.initial (asg (c! "b") (c! "c")))] none)
     (.item (.loop ⟨true, idI (c! "i"), idE (c! "x")⟩ (idE (c! "y")) (.incDec false true (idI (c! "i"))) (.item .semi))))]]

theorem ok_exVec : okDType exVec := by
  simp only [exVec, okDType, okVDims]
  exact ⟨by decide +kernel, ok_exRange _ _ (by decide +kernel) (by decide +kernel), trivial⟩

theorem apart_text {l l' : List Ident} (h : ∀ i ∈ l, ∀ j ∈ l', i.esc = false ∧ j.esc = false ∧ i.text ≠ j.text) : apart l l' := by
  intro i hi j hj
  obtain ⟨h1, h2, h3⟩ := h i hi j hj
  simp only [identStr, h1, h2, Bool.false_eq_true, if_false]
  exact fun h => h3 (Except.ok.inj h)

example : okMod exMod := by
  have e : ∀ s, isKw s = false → okExp (idE s) := fun s h => ok_idE h
  have nn : ∀ s, isNullExp (idE s) = false := by intro s; simp [idE, idP, isNullExp, isNullPrim]
  have hbc : okStmN (asg (c! "b") (c! "c")) := ok_asg (by decide +kernel) (by decide +kernel)
  have hqn : okStmN (asg (c! "q") (c! "n")) := ok_asg (by decide +kernel) (by decide +kernel)
  simp only [exMod, okMod, okHdrParams, okPortParams, okGenericDecl, okHdrPorts, bodyPortNames, okAnsiPorts, okModItems, okGenItem, okGItems, okGItem, okNet,
    okGate, okInst, okTf, okTfDecl, okTfHead, okTfPorts, okFnRet, okGenInit, okGenIter, okAlways, okTypeI, okNetOrVar, okHierInst, okConns,
    List.mem_cons, List.not_mem_nil, or_false, forall_eq, okParam, okPValue, okPExpr, okMTM, okTypeDims, okOptExp, okVDims, okGateName, okExps,
    okVarAssign, okStmNs, okEventCtl, okEventItems, okEventItem, List.isEmpty_nil, true_and, and_true, or_true, forall_eq_or_imp]
  have f : ∀ r : ARange, False → okARange r := fun _ h => h.elim
  refine ⟨rfl, by decide +kernel, ⟨ok_idI (by decide +kernel), e _ (by decide +kernel)⟩, ⟨ok_idI (by decide +kernel), ok_idI (by decide +kernel),
    ok_exVec, ok_idI (by decide +kernel), rfl, ok_exVec⟩,
    ⟨⟨ok_idI (by decide +kernel), f, fun _ => trivial⟩, ⟨ok_idT (by decide +kernel), e _ (by decide +kernel)⟩,
      ⟨⟨ok_idI (by decide +kernel), by simp [identStr, idI]⟩, ok_idT (by decide +kernel), e _ (by decide +kernel), e _ (by decide +kernel)⟩,
      ⟨rfl, by decide +kernel, by decide +kernel, ?_, ok_idI (by decide +kernel), f,
        ⟨ok_idI (by decide +kernel), e _ (by decide +kernel), nn _⟩, ok_idI (by decide +kernel)⟩,
      ⟨⟨by simp, e _ (by decide +kernel)⟩, hqn⟩,
      ⟨ok_exVec, ok_idI (by decide +kernel), ⟨⟨⟨_, rfl, ok_idI (by decide +kernel)⟩, ok_exVec, by simp⟩, fun _ h => h.elim⟩, hbc⟩,
      e _ (by decide +kernel), ⟨⟨hbc, rfl⟩, (fun _ h => by cases h), (fun _ h => by cases h; exact ok_idI (by decide +kernel)),
        (fun _ h => by cases h), fun _ _ => trivial⟩,
      ⟨⟨ok_idI (by decide +kernel), e _ (by decide +kernel)⟩, e _ (by decide +kernel), ok_idI (by decide +kernel)⟩, rfl⟩, ?_⟩
  · simp only [okPVA, okPExprs, okPExpr, okMTM]
    exact ⟨e _ (by decide +kernel), trivial⟩
  · apply apart_text
    intro i hi j hj
    simp only [List.flatMap_cons, List.flatMap_nil, modItemNames, genItemNames, netNames, tfName, gItemsNames, gItemNames, List.map_cons,
      List.map_nil, List.nil_append, List.append_nil, List.cons_append, List.mem_cons, List.not_mem_nil, or_false] at hi
    simp only [hdrPortNames, ansiPortName, List.map_cons, List.map_nil, List.mem_cons, List.not_mem_nil, or_false] at hj
    rcases hi with rfl | rfl <;> rcases hj with rfl | rfl | rfl <;> decide +kernel

/-! ## Violations: modules -/

/-- C74 is violated by nested checkers, assertions, `bind`, `alias`, `defparam`, ...: they are dropped. -/
theorem C74_violated_ignored (i : IgnoredItem) (l : List ModItem) (st : ModState) :
    visitModItems st (.item (.ignored i) :: l) = visitModItems st l ∧
    evModItems Term.alg STerm.alg MTerm.alg false [.item (.ignored i)] ≠ evModItems Term.alg STerm.alg MTerm.alg false [] := by
  constructor
  · simp only [visitModItems, visitModItem, visitGenItem, bind, Except.bind, pure, Except.pure, List.append_nil]
  · simp [evModItems, evGenItem]

/-- C74 is violated by specify blocks, nested programs and interfaces, time units and specparams: they are dropped. -/
theorem C74_violated_other (l : List ModItem) (st : ModState) :
    visitModItems st (.other :: l) = visitModItems st l ∧
    evModItems Term.alg STerm.alg MTerm.alg false [.other] ≠ evModItems Term.alg STerm.alg MTerm.alg false [] := by
  constructor
  · simp only [visitModItems, visitModItem, bind, Except.bind]
  · simp [evModItems]

/-- C74 is violated by everything that is no module in a source text: packages, interfaces, programs, classes, functions are dropped. -/
theorem C74_violated_description (l l' : List Desc) : visitSource (l ++ .other :: l') = visitSource (l ++ l') := by
  induction l with
  | nil => rfl
  | cons d l ih =>
    cases d with
    | module_ m => simp only [List.cons_append, visitSource, ih]
    | other => simpa only [List.cons_append, visitSource] using ih

/-- C74 is violated by parameters in the body of a module with a parameter list: they are local, but become parameters. `module m #() ();
parameter A = x; endmodule` has the AST of `module m (); parameter A = x; endmodule`. -/
theorem C74_violated_body_parameters (n : Ident) (ports : HdrPorts) (d : ParamDecl) :
    visitMod (.mk false ⟨n, some (.decls [])⟩ ports [.item (.param d)]) = visitMod (.mk false ⟨n, none⟩ ports [.item (.param d)]) ∧
    (∀ a : Ident, evMod Term.alg STerm.alg MTerm.alg (.mk false ⟨n, some (.decls [])⟩ ports [.item (.param (.val none [⟨a, [], none⟩]))]) ≠
      evMod Term.alg STerm.alg MTerm.alg (.mk false ⟨n, none⟩ ports [.item (.param (.val none [⟨a, [], none⟩]))])) := by
  constructor
  · rfl
  · intro a
    simp [evMod, evModItems, evBodyParams, evHdrParams, evPortParams, evGenericDecl, evGeneric, MTerm.alg, STerm.alg]

/-- C74 is violated by parameters without keyword after a local parameter: `#(localparam A = 1, int B = 2)` declares `B` as a parameter that
can be overridden; the AST is that of `#(localparam A = 1, parameter int B = 2)`. -/
theorem C74_violated_local_parameter (d : ParamDecl) (t : DType) (b : Ident) (v : Option PExpr) :
    visitHdrParams (some (.decls [.localparam d, .typed t [⟨b, [], v⟩]])) =
      visitHdrParams (some (.decls [.localparam d, .param (.val (some (.type t)) [⟨b, [], v⟩])])) ∧
    evPortParams Term.alg STerm.alg true [.typed t [⟨b, [], v⟩]] ≠
      evPortParams Term.alg STerm.alg true [.param (.val (some (.type t)) [⟨b, [], v⟩])] := by
  constructor
  · simp only [visitHdrParams, visitParamPorts, visitPortParams, visitPortParam, visitParamDecl, visitDTypeOrImpl]
  · simp [evPortParams, evGenericDecl, evGeneric, STerm.alg]

/-- C74 is violated by escaped module names: the name keeps its backslash, in declarations as in instances, while other names do not. -/
theorem C74_violated_escaped (t : Str) (ports : HdrPorts) (items : List ModItem) (o : Obj) (ht : t.head? = some '\\')
    (h : visitMod (.mk false ⟨⟨true, t⟩, none⟩ ports items) = .ok o) :
    ∃ d l, o = .modDef [] (.id none t) d l ∧ identStr ⟨true, t⟩ ≠ .ok t := by
  simp only [visitMod, Bool.false_eq_true, if_false, bind_ok, pure_ok] at h
  obtain ⟨gs, _, ps, _, st, _, rfl⟩ := h
  refine ⟨_, _, rfl, ?_⟩
  cases t with
  | nil => cases ht
  | cons c t =>
    simp only [identStr, svEscapedId, substr, if_true]
    intro h
    split at h
    · cases h
    · rename_i hs
      obtain rfl := Except.ok.inj h
      split at hs
      · have := congrArg List.length (Option.some.inj hs)
        simp at this
      · cases hs

example : ∃ o, visitMod (.mk false ⟨⟨true, c! "\\m+1"⟩, none⟩ .none []) = .ok o := ⟨_, rfl⟩

/-! ## Violations: gates -/

/-- `not g (n, a);` -/
example : okGate (.nOut true [⟨some (idI (c! "g"), []), [idT (c! "n")], idE (c! "a")⟩]) := by
  intro g hg
  cases hg with
  | head => exact ⟨ok_idE (by decide +kernel), _, rfl, ok_idT (by decide +kernel)⟩
  | tail _ h => cases h

/-- C75 is violated by several outputs: `buf (a, b, i)` drives `a` and `b` with `i`, but becomes `{a, b} = i`. -/
theorem C75_violated_outputs (a b i : Str) (neg : Bool) :
    ∃ o, visitGate (.nOut neg [⟨none, [idT a, idT b], idE i⟩]) = .ok [o] ∧
      (evGate Term.alg MTerm.alg (.nOut neg [⟨none, [idT a, idT b], idE i⟩])).length = 2 := by
  have h : ∀ s, visitLVal (idT s) = .ok (.id none s) := fun s => visit_idL s
  refine ⟨.assign {} (.op none .CONCAT [.id none a, .id none b]) (if neg then .op none .NEG [.id none i] else .id none i) .null none false, ?_, rfl⟩
  simp only [visitGate, visitNOutInsts, visitNOutInst, visitLVals, h, visit_idE, bind, Except.bind, pure, Except.pure]
  cases neg <;> rfl

/-- C75 is violated by arrays of gates: `and g[3:0] (...)` has the AST of `and g (...)`. -/
theorem C75_violated_array (g : NGate) (i : Ident) (dims : List ARange) (o : LVal) (l : List Exp) :
    visitGate (.nIn g [⟨some (i, dims), o, l⟩]) = visitGate (.nIn g [⟨some (i, []), o, l⟩]) ∧
    ∀ r, evGate Term.alg MTerm.alg (.nIn g [⟨some (i, [r]), o, l⟩]) ≠ evGate Term.alg MTerm.alg (.nIn g [⟨some (i, []), o, l⟩]) := by
  constructor
  · rfl
  · intro r
    simp only [evGate, evGateName, evDims, MTerm.alg, List.map_cons, List.map_nil]
    intro h
    injection h with h
    injection h with _ h
    injection h with h
    exact Term.node_ne _ _ _ h

/-- C75 is violated by all other gates: `bufif0`, `nmos`, `tran`, `pullup`, ... are dropped. -/
theorem C75_violated_other : visitGate .other = .ok [] ∧ evGate Term.alg MTerm.alg .other ≠ [] := ⟨rfl, by simp [evGate]⟩

/-! ## Violations: generate constructs -/

/-- C76 is violated by parameters in generate blocks: they are dropped. -/
theorem C76_violated_parameter (d : ParamDecl) (r : List IdDef) (h : visitParamDecl d = .ok r) (l : List GItem) :
    visitGItems (.item (.param d) :: l) = visitGItems l ∧
    ∀ a : Ident, evGItems Term.alg STerm.alg MTerm.alg [.item (.param (.val none [⟨a, [], none⟩]))] ≠ evGItems Term.alg STerm.alg MTerm.alg [] := by
  constructor
  · simp only [visitGItems, visitGItem, visitGenItem, h, bind, Except.bind, pure, Except.pure, List.nil_append]
    cases visitGItems l <;> rfl
  · intro a
    simp [evGItems, evGItem, evGenItem, evParamDecl, evParam]

example : ∃ r, visitParamDecl (.val none [⟨idI (c! "P"), [], some (.mtm (.one (idE (c! "x"))))⟩]) = .ok r := by
  simp only [visitParamDecl, visitTypedParams, visitParamAssigns, visitParamAssign, visitPExpr, visitMTM, visitDTypeOrImpl, visit_idE, identStr, idI,
    bind, Except.bind, pure, Except.pure]
  exact ⟨_, rfl⟩

/-- C76 is violated by `extern` tasks and by `rand` variables in generate blocks: they are dropped. -/
theorem C76_violated_extern (l : List GItem) :
    visitGItems (.externTf :: l) = visitGItems l ∧ visitGItems (.rand :: l) = visitGItems l ∧
    evGItems Term.alg STerm.alg MTerm.alg [.externTf] ≠ evGItems Term.alg STerm.alg MTerm.alg [] ∧
    evGItems Term.alg STerm.alg MTerm.alg [.rand] ≠ evGItems Term.alg STerm.alg MTerm.alg [] := by
  refine ⟨?_, ?_, by simp [evGItems, evGItem], by simp [evGItems, evGItem]⟩ <;>
    (simp only [visitGItems, visitGItem, bind, Except.bind, pure, Except.pure, List.nil_append]; cases visitGItems l <;> rfl)

/-- C76 is violated by the labels of blocks: `begin ... end : a` has the AST of `begin : a ... end`, and `begin : a ... end : a` has the
label twice. -/
theorem C76_violated_labels (a : Ident) (s : Str) (ha : identStr a = .ok s) (l : List GItem) (os : List Obj) (h : visitGItems l = .ok os) :
    visitGItem (.block none none l (some a)) = visitGItem (.block none (some a) l none) ∧
    visitGItem (.block none (some a) l (some a)) = .ok [.block { labels := [s, s] } .SEQ os] ∧
    evGItem Term.alg STerm.alg MTerm.alg (.block none none [] (some a)) ≠ evGItem Term.alg STerm.alg MTerm.alg (.block none (some a) [] none) := by
  refine ⟨by simp only [visitGItem, genLabels], ?_, ?_⟩
  · simp only [visitGItem, genLabels, h, ha, bind, Except.bind, pure, Except.pure]
  · simp [evGItem, evGItems, MTerm.alg, MTerm.mkBlock]

example : ∃ os, visitGItems [.item .semi] = .ok os ∧ identStr (idI (c! "a")) = .ok (c! "a") := by
  simp only [visitGItems, visitGItem, visitGenItem, bind, Except.bind, pure, Except.pure]
  exact ⟨_, rfl, rfl⟩

/-- C67 is violated: a branch of a generate `case` that stands for no or several objects fails an assertion, e.g. `1: wire a, b;`. -/
theorem C67_violated_case_generate (sel e : Exp) (x : Expr) (hs : visitExp sel = .ok x) (g : GItem) (os : List Obj)
    (hg : visitGItem g = .ok os) (hn : os.length ≠ 1) : visitGenItem (.case sel [.exprs [e] g]) = .error .ub := by
  have h : oneObj os = .error .ub := by
    match os, hn with
    | [], _ => rfl
    | [_], hn => exact absurd rfl hn
    | _ :: _ :: _, _ => rfl
  simp only [visitGenItem, visitCaseGItems, visitCaseGItem, hs, hg, h, bind, Except.bind]

example : ∃ os, visitGItem (.item (.genvar [idI (c! "i"), idI (c! "j")])) = .ok os ∧ os.length ≠ 1 := by
  simp only [visitGItem, visitGenItem, visitGenvars, identStr, idI, bind, Except.bind, pure, Except.pure]
  exact ⟨_, rfl, by decide⟩

/-- C67 is violated: a generate region with one `if` as the `else` branch of a generate `if` fails an assertion. -/
theorem C67_violated_else_region (c d : Exp) (x y : Expr) (hc : visitExp c = .ok x) (hd : visitExp d = .ok y) (t s : GItem) (ts ss : List Obj)
    (ht : visitGItem t = .ok ts) (hs : visitGItem s = .ok ss) :
    visitGenItem (.ifElse c t (.region [.item (.if_ d s)])) = .error .ub := by
  simp only [visitGenItem, visitGItem, visitGItems, hc, hd, ht, hs, bind, Except.bind, pure, Except.pure, List.append_nil]
  rfl

example : (∃ ss, visitGItem (.item .semi) = .ok ss) ∧ ∃ x, visitExp (idE (c! "c")) = .ok x := by
  simp only [visitGItem, visitGenItem, visit_idE, bind, Except.bind, pure, Except.pure]
  exact ⟨⟨_, rfl⟩, _, rfl⟩

/-! ## Violations: instances -/

/-- `sub u [W:Z] (.*), v (, a);` -/
example : okInst ⟨idI (c! "sub"), .none, [⟨idI (c! "u"), [exRange (c! "W") (c! "Z")], .named [.star]⟩,
    ⟨idI (c! "v"), [], .ordered [none, some (idE (c! "a"))]⟩]⟩ := by
  refine ⟨rfl, by decide +kernel, by decide +kernel, by simp only [okPVA], ?_⟩
  intro h hh
  simp only [List.mem_cons, List.not_mem_nil, or_false] at hh
  rcases hh with rfl | rfl
  · refine ⟨ok_idI (by decide +kernel), ?_, ?_⟩
    · intro r hr
      simp only [List.mem_cons, List.not_mem_nil, or_false] at hr
      subst hr
      have := ok_exRange (c! "W") (c! "Z") (by decide +kernel) (by decide +kernel)
      simpa only [okVDim] using this
    · intro c hc
      simp only [List.mem_cons, List.not_mem_nil, or_false] at hc
      subst hc
      trivial
  · refine ⟨ok_idI (by decide +kernel), (fun r hr => by cases hr), ?_⟩
    intro x hx
    simp only [List.mem_cons, List.not_mem_nil, or_false, reduceCtorEq, Option.some.injEq, false_or] at hx
    subst hx
    exact ⟨ok_idE (by decide +kernel), by simp [idE, idP, isNullExp, isNullPrim]⟩

/-- C77 is violated by `.a`: it connects the port `a` with the signal `a`, but has the AST of `.a()`. -/
theorem C77_violated_name (i : Ident) : visitNamedConn (.name i) = visitNamedConn (.empty i) ∧
    evNamedConn Term.alg (.name i) ≠ evNamedConn Term.alg (.empty i) := ⟨rfl, by simp [evNamedConn]⟩

/-- C77 is violated by `null`: `.a(null)` has the AST of `.a()`, and `u(null, b)` of `u(, b)`. -/
theorem C77_violated_null (i : Ident) (l : List (Option Exp)) :
    visitNamedConn (.val i (.prim (.lit .null))) = visitNamedConn (.empty i) ∧
    evNamedConn Term.alg (.val i (.prim (.lit .null))) ≠ evNamedConn Term.alg (.empty i) ∧
    visitConns (.ordered (some (.prim (.lit .null)) :: l)) = visitConns (.ordered (none :: l)) ∧
    evConns Term.alg (.ordered (some (.prim (.lit .null)) :: l)) ≠ evConns Term.alg (.ordered (none :: l)) := by
  refine ⟨?_, by simp [evNamedConn], ?_, by simp [evConns]⟩
  · simp only [visitNamedConn, visitExp, visitPrim, visitLit, bind, Except.bind]
  · simp only [visitConns, visitOrderedConns, visitExp, visitPrim, visitLit, bind, Except.bind]

/-! ## Violations: tasks and functions -/

/-- `task t; output logic [W:Z] a; logic [W:Z] v; b = c; endtask` -/
example : okTf (.task none ⟨none, idI (c! "t"), .items [.port ⟨.dir .output, false, some (.type exVec), [⟨idI (c! "a"), [], none⟩]⟩,
    .block (.data (.vars false none (some (.type exVec)) [⟨idI (c! "v"), [], .none⟩]))], [asg (c! "b") (c! "c")]⟩) := by
  refine ⟨rfl, ok_idI (by decide +kernel), ⟨?_, ?_⟩, by simp only [okStmNs]; exact ⟨ok_asg (by decide +kernel) (by decide +kernel), trivial⟩⟩
  · intro i hi
    simp only [List.mem_cons, List.not_mem_nil, or_false] at hi
    rcases hi with rfl | rfl
    · refine ⟨rfl, by simp, by simp, ?_⟩
      intro v hv
      simp only [List.mem_cons, List.not_mem_nil, or_false] at hv
      subst hv
      exact ⟨ok_idI (by decide +kernel), trivial, trivial, rfl, ok_exVec, .inr rfl⟩
    · refine ⟨?_, by simp⟩
      intro v hv
      simp only [List.mem_cons, List.not_mem_nil, or_false] at hv
      subst hv
      exact ⟨ok_idI (by decide +kernel), trivial, trivial, ok_exVec, .inr rfl⟩
  · apply apart_text
    intro i hi j hj
    simp only [List.flatMap_cons, List.flatMap_nil, tfItemNames, tfPortNames, blockNames, dataNames, List.map_cons, List.map_nil, List.nil_append,
      List.append_nil, List.mem_cons, List.not_mem_nil, or_false] at hi hj
    subst hi hj
    decide +kernel

/-- C78 is violated by scopes: `function C::f` has the AST of `function f`. -/
theorem C78_violated_scope (life : Option Lifetime) (ret : FnRet) (p : Ident) (d : TfDecl) :
    visitTfDef (.function life ret { d with prefix_ := some p }) = visitTfDef (.function life ret { d with prefix_ := none }) ∧
    visitTfDef (.task life { d with prefix_ := some p }) = visitTfDef (.task life { d with prefix_ := none }) ∧
    evTf Term.alg STerm.alg MTerm.alg (.function life ret { d with prefix_ := some p }) ≠
      evTf Term.alg STerm.alg MTerm.alg (.function life ret { d with prefix_ := none }) := by
  refine ⟨rfl, rfl, ?_⟩
  simp only [evTf, evTfDecl, MTerm.alg, Option.map_some, Option.map_none, dot]
  intro h
  injection h with _ _ h
  simp [Term.alg] at h

/-- C78 is violated by arguments in parentheses without type: `f(int a, b)` has the AST of `f(int a, input b)`, though `b` is an `int` in
the first and has no type in the second. -/
theorem C78_violated_argument_type (t : DType) (a b : Ident) :
    visitTfPorts [⟨none, false, some (.type t), some a, [], none⟩, ⟨none, false, none, some b, [], none⟩] =
      visitTfPorts [⟨none, false, some (.type t), some a, [], none⟩, ⟨some (.dir .input), false, none, some b, [], none⟩] ∧
    (evDType Term.alg t ≠ STerm.alg.auto →
      evTfPorts Term.alg STerm.alg (.dir .input) STerm.alg.auto
        [⟨none, false, some (.type t), some a, [], none⟩, ⟨none, false, none, some b, [], none⟩] ≠
      evTfPorts Term.alg STerm.alg (.dir .input) STerm.alg.auto
        [⟨none, false, some (.type t), some a, [], none⟩, ⟨some (.dir .input), false, none, some b, [], none⟩]) := by
  refine ⟨rfl, fun h => ?_⟩
  simp only [evTfPorts, evTypeI, if_true, evVDims, Option.getD_some, Option.getD_none]
  intro e
  injection e with _ e
  injection e with e
  injection e with _ _ _ e
  exact h e

example : evDType Term.alg exVec ≠ STerm.alg.auto := by
  simp [exVec, evDType, evVDims, STerm.alg, Term.alg]

/-! ## C79: the flag `in_preproc` -/

/-- C79 (generate regions): what stands directly in a generate region is marked. Missing: everything else, see `C79_violated`. -/
theorem C79_region_partial (l : List GItem) (os : List Obj) (h : visitGItem (.region l) = .ok os) :
    ∀ o ∈ os, ∀ i, o.info? = some i → i.preproc = true := by
  simp only [visitGItem, bind_ok, pure_ok] at h
  obtain ⟨r, _, rfl⟩ := h
  intro o ho i hi
  obtain ⟨x, _, rfl⟩ := List.mem_map.1 ho
  cases x <;> simp only [markPreproc, Obj.mapInfo, Obj.info?, Option.some.injEq, reduceCtorEq] at hi <;> subst hi <;> rfl

example : ∃ os, visitGItem (.region [.item (.if_ (idE (c! "c")) (.item .semi))]) = .ok os ∧ ∃ o ∈ os, o.info?.isSome = true := by
  simp only [visitGItem, visitGItems, visitGenItem, visit_idE, popBlock, collapseElifs, bind, Except.bind, pure, Except.pure]
  exact ⟨_, rfl, _, .head _, rfl⟩

/-- C79 is violated by generate constructs outside of a region or inside of another one: no loop, `if` or `case` there is marked. -/
theorem C79_violated (x : GenItem) (hx : (∃ i c s b, x = .loop i c s b) ∨ (∃ c t, x = .if_ c t) ∨ (∃ c t f, x = .ifElse c t f) ∨
    ∃ s l, x = .case s l) (r : List Obj × List IdDef) (h : visitGenItem x = .ok r) :
    ∃ o i, r.1 = [o] ∧ o.info? = some i ∧ i.preproc = false := by
  have hc : ∀ {c : Expr} {t f o : Obj}, collapseElifs {} c t f = .ok o → ∃ i, o.info? = some i ∧ i.preproc = false := by
    intro c t f o h
    obtain ⟨el, f', rfl⟩ := collapse_ok h
    exact ⟨_, rfl, rfl⟩
  rcases hx with ⟨i, c, s, b, rfl⟩ | ⟨c, t, rfl⟩ | ⟨c, t, f, rfl⟩ | ⟨s, l, rfl⟩
  · simp only [visitGenItem, bind_ok, pure_ok] at h
    obtain ⟨_, _, _, _, _, _, _, _, rfl⟩ := h
    exact ⟨_, _, rfl, rfl, rfl⟩
  · simp only [visitGenItem, bind_ok, pure_ok] at h
    obtain ⟨_, _, _, _, o, ho, rfl⟩ := h
    obtain ⟨i, h1, h2⟩ := hc ho
    exact ⟨o, i, rfl, h1, h2⟩
  · simp only [visitGenItem, bind_ok, pure_ok] at h
    obtain ⟨_, _, _, _, _, _, o, ho, rfl⟩ := h
    obtain ⟨i, h1, h2⟩ := hc ho
    exact ⟨o, i, rfl, h1, h2⟩
  · simp only [visitGenItem, bind_ok] at h
    obtain ⟨_, _, _, _, p, _, h⟩ := h
    obtain ⟨bs, d⟩ := p
    obtain rfl := Except.ok.inj h
    exact ⟨_, _, rfl, rfl, rfl⟩

example : ∃ r, visitGenItem (.if_ (idE (c! "c")) (.item .semi)) = .ok r := by
  simp only [visitGItem, visitGenItem, visit_idE, popBlock, collapseElifs, bind, Except.bind, pure, Except.pure]
  exact ⟨_, rfl⟩

/-! ## C81: headers of ports that mean the same -/

/-- C81 for types without type name: `input [3:0] a` and `input wire [3:0] a` give the same port. Missing: headers without type. -/
theorem C81_wire_partial (D : Option Dir) (pb : Expr) (d : PortDir) (t : ImplType) (n : Ident) (dims : List VDim) (v : Option Exp) :
    visitAnsiPort D pb (.decl (.dir d (some (.net (c! "wire") (some (.impl t))))) n dims v) =
      visitAnsiPort D pb (.decl (.dir d (some (.type (.impl t)))) n dims v) := by
  have h : visitImplType (.id none (c! "wire")) (some t) = visitImplType .null (some t) := by
    obtain ⟨s, l⟩ := t
    cases l <;> rfl
  simp only [visitAnsiPort, visitAnsiHead, visitNetOrVar, visitDTypeOrImpl, h, AnsiPort.dir?]

/-- C81 is violated by headers without type: `input a` is `input wire a`, but the first has the type `wire`, the second the automatic
type. -/
theorem C81_violated (a : Str) :
    visitHdrPorts (.list (.ansi [.decl (.dir .input none) (idI a) [] none])) =
      .ok [{ name := a, type := .id none (c! "wire"), value := .null, dir := .IN }] ∧
    visitHdrPorts (.list (.ansi [.decl (.dir .input (some (.net (c! "wire") none))) (idI a) [] none])) =
      .ok [{ name := a, type := .symb none .T_AUTO, value := .null, dir := .IN }] := by
  constructor <;>
    simp only [visitHdrPorts, visitPortList, visitAnsiPorts, visitAnsiPort, visitAnsiHead, visitNetOrVar, visitDTypeOrImpl, applyVDims, visitVDims,
      afterDims, identStr, idI, visitOptExp, bind, Except.bind, pure, Except.pure] <;> rfl

end Verif.Sv
