import Verif.VhdlStmLemmas
import Verif.Props.VhdlExpr
/-!
# Meaning of VHDL sequential statements (C83)
-/
namespace Verif.Vhdl
open Verif Verif.Spec

/-! ## Statements as terms, for the examples and for different meanings -/

/-- Terms for statements, declarations and units. -/
inductive STerm
  | str (s : Str)
  | val (v : Term)
  | node (s : String) (l : List STerm)

/-- A truth value. -/
def STerm.flag (b : Bool) : STerm := .node (if b then "true" else "false") []

/-- An optional value. -/
def STerm.opt : Option Term → STerm
  | none => .node "none" []
  | some v => .node "some" [.val v]

/-- An optional text. -/
def STerm.optStr : Option Str → STerm
  | none => .node "none" []
  | some v => .node "some" [.str v]

/-- An optional term. -/
def STerm.optTerm : Option STerm → STerm
  | none => .node "none" []
  | some v => .node "some" [v]

/-- A list of values. -/
def STerm.vals (l : List Term) : STerm := .node "values" (l.map .val)

/-- Alternatives. -/
def STerm.alts (l : List (Term × STerm)) : STerm := .node "alternatives" (l.map fun p => .node "alternative" [.val p.1, p.2])

/-- Names with values. -/
def STerm.named (l : List (Str × Term)) : STerm := .node "named" (l.map fun p => .node "pair" [.str p.1, .val p.2])

def STerm.mode : Mode → STerm
  | .in_ => .node "in" []
  | .out => .node "out" []
  | .inout => .node "inout" []
  | .buffer => .node "buffer" []
  | .linkage => .node "linkage" []

def STerm.force : Option ForceMode → STerm
  | none => .node "none" []
  | some .in_ => .node "in" []
  | some .out => .node "out" []

def STerm.dkind : DKind → STerm
  | .constant => .node "constant" []
  | .variable s => .node "variable" [STerm.flag s]
  | .signal => .node "signal" []

def STerm.ikind : IKind → STerm
  | .constant => .node "constant" []
  | .variable m => .node "variable" [STerm.mode m]
  | .signal m => .node "signal" [STerm.mode m]

def STerm.instKind : InstKind → STerm
  | .component => .node "component" []
  | .entity a => .node "entity" [STerm.optStr a]
  | .config => .node "configuration" []

def STerm.elit : ELit Term → STerm
  | .name s => .str s
  | .chr v => .val v

def STerm.head (h : SubHead Term STerm) : STerm :=
  .node "head" [.str h.name, STerm.flag h.operator, STerm.flag h.impure, .node "generics" h.generics, .node "parameters" h.params, STerm.opt h.ret]

def STerm.sens : Option (Option (List Term)) → STerm
  | none => .node "none" []
  | some none => .node "all" []
  | some (some l) => STerm.vals l

/-- A body of one statement is the statement. -/
def STerm.gbody : List STerm → STerm
  | [s] => s
  | l => .node "body" l

/-- The term algebra: the meaning of a statement is the statement itself, with converted tokens. -/
def STerm.alg : SAlg Term STerm where
  nop := .node "null" []
  sig d s := .node "<=" [.val d, .val s]
  delayed t r s := .node "delayed" [STerm.flag t, STerm.opt r, s]
  force m d s := .node "force" [STerm.force m, .val d, .val s]
  release m d := .node "release" [STerm.force m, .val d]
  var d s := .node ":=" [.val d, .val s]
  call f l := .node "call" [.val f, STerm.vals l]
  assert_ c r s := .node "assert" [.val c, STerm.opt r, STerm.opt s]
  report e s := .node "report" [.val e, STerm.opt s]
  wait on u f := .node "wait" [STerm.vals on, STerm.opt u, STerm.opt f]
  ite c t f := .node "if" [.val c, t, STerm.optTerm f]
  case q e l d := .node "case" [STerm.flag q, .val e, STerm.alts l, STerm.optTerm d]
  forever b := .node "while" [.val (.tok (.id none (c! "True"))), b]
  while_ c b := .node "while" [.val c, b]
  for_ i r b := .node "for" [.str i, .val r, b]
  next l c := .node "next" [STerm.optStr l, STerm.opt c]
  exit l c := .node "exit" [STerm.optStr l, STerm.opt c]
  ret e := .node "return" [STerm.opt e]
  block l := .node "block" l
  label l s := .node "label" [.str l, s]
  decl k n t v := .node "declaration" [STerm.dkind k, .str n, .val t, STerm.opt v]
  intf k n t v := .node "interface" [STerm.ikind k, .str n, .val t, STerm.opt v]
  alias_ n t v := .node "alias" [.str n, STerm.opt t, .val v]
  subtype n t := .node "subtype" [.str n, .val t]
  typeIncomplete n := .node "type" [.str n]
  typeEnum n l := .node "enumeration" (.str n :: l.map STerm.elit)
  typeRange n r := .node "range type" [.str n, .val r]
  typePhys n r p l := .node "physical type" [.str n, .val r, .str p, STerm.named l]
  typeArray n e l := .node "array" [.str n, .val e, STerm.vals l]
  typeRecord n l := .node "record" [.str n, STerm.named l]
  subprogram h b := .node "subprogram" [STerm.head h, STerm.optTerm (b.map (.node "body"))]
  package h n g l := .node "package" [STerm.flag h, .str n, .node "generics" g, .node "contents" l]
  component n g p := .node "component" [.str n, .node "generics" g, .node "ports" p]
  use l := .node "use" [STerm.vals l]
  library n := .node "library" [.str n]
  entity n g p l := .node "entity" [.str n, .node "generics" g, .node "ports" p, .node "contents" l]
  arch n e l := .node "architecture" [.str n, .val e, .node "contents" l]
  process s l := .node "process" [STerm.sens s, .node "contents" l]
  postponed s := .node "postponed" [s]
  guarded s := .node "guarded" [s]
  cblock g gs ps l := .node "block statement" [STerm.opt g, .node "generics" gs, .node "ports" ps, .node "contents" l]
  inst n k u g p := .node "instance" [.str n, STerm.instKind k, .val u, STerm.vals g, STerm.vals p]
  forGen i r b := .node "for generate" [.str i, .val r, b]
  ifGen c t f := .node "if generate" [.val c, t, STerm.optTerm f]
  caseGen e l d := .node "case generate" [.val e, STerm.alts l, STerm.optTerm d]
  gbody := STerm.gbody
  altLabel l s := .node "alternative label" [.str l, s]
  other s l := .node s (l.map .str)

theorem STerm.agrees : SAgrees STerm.alg Term.tok where
  forever _ := rfl
  one _ := rfl

/-! ## The theorems -/

/-- C83 (supported fragment): the converted statement has the meaning of the statement, whatever the statements and operators mean.
Missing: what `okSeq` leaves out, see the `C83_violated` theorems. -/
theorem C83_statement_meaning_partial {V S : Type} (A : Alg V) (B : SAlg V S) (leaf : Expr → V) (hA : Agrees A leaf) (hB : SAgrees B leaf)
    (x : Seq) (h : okSeq x) : ∃ o, visitSeq x = .ok o ∧ astObj A B leaf o = some (evSeq A B x) :=
  seq_eval hA hB x h

/-- C83: the same for the statements of a process or subprogram. -/
theorem C83_statements_meaning_partial {V S : Type} (A : Alg V) (B : SAlg V S) (leaf : Expr → V) (hA : Agrees A leaf) (hB : SAgrees B leaf)
    (l : List Seq) (h : okSeqs l) : ∃ os, visitSeqs l = .ok os ∧ astObjs A B leaf os = some (evSeqs A B l) := by
  obtain ⟨os, h1, -, h2⟩ := seqs_eval hA hB l h
  exact ⟨os, h1, h2⟩

/-- C83: no two statements with different meanings have the same AST (`loop` and `while True loop` count as equal). -/
theorem C83_statement_injective_partial (x y : Seq) (hx : okSeq x) (hy : okSeq y) (h : visitSeq x = visitSeq y) :
    evSeq Term.alg STerm.alg x = evSeq Term.alg STerm.alg y := by
  obtain ⟨e, h1, h2⟩ := seq_eval Term.agrees STerm.agrees x hx
  obtain ⟨f, h3, h4⟩ := seq_eval Term.agrees STerm.agrees y hy
  rw [h1, h3] at h
  cases h
  exact Option.some.inj (h2.symm.trans h4)

/-- C83: in a list of statements, supported or not, every statement becomes one object, in order. -/
theorem C83_one_object_each (l : List Seq) (os : List Obj) (h : visitSeqs l = .ok os) :
    List.Forall₂ (fun s o => visitSeq s = .ok o) l os := by
  induction l generalizing os with
  | nil => simp only [visitSeqs] at h; cases h; exact .nil
  | cons s l ih =>
    simp only [visitSeqs] at h
    obtain ⟨o, ho, h⟩ := bind_ok h
    obtain ⟨r, hr, h⟩ := bind_ok h
    cases h
    exact .cons ho (ih r hr)

/-! ## An example -/

/-- An identifier as a target. -/
def idT (s : Str) : Target := .name (.lit (.ident s))

/-- `d <= s;` -/
def sigS (d s : Str) : Seq := .mk none (.sig (.wave (idT d) none (.elems ⟨idE s, none⟩ [])))

/--
```
if a then
  lbl: case s is when b | c => d <= e; when others => null; end case lbl;
elsif b then
  for i in a'range loop next lbl when c; end loop;
else
  wait on clk until d for 10 ns;
  assert c report m severity warning;
  p(x);
  v := a;
  return v;
end if;
``` -/
def exSeq : Seq := .mk none (.if_ (idE (c! "a"))
  [.mk (some (c! "lbl")) (.case_ false (idE (c! "s"))
    [.mk [.simple (.prim (idP (c! "b"))), .simple (.prim (idP (c! "c")))] [sigS (c! "d") (c! "e")], .mk [.others] [.mk none .null_]]
    (some (c! "lbl")))]
  [.mk (idE (c! "b")) [.mk none (.loop (.for_ (c! "i") (.range (.attr (.lit (.ident (c! "a"))) false (c! "range"))))
    [.mk none (.next (some (c! "lbl")) (some (idE (c! "c"))))] none)]]
  (.some [.mk none (.wait [.lit (.ident (c! "clk"))] (some (idE (c! "d"))) (some (.simple (.prim (.decUnit (c! "10") (.lit (.ident (c! "ns")))))))),
    .mk none (.assert_ (idE (c! "c")) (some (idE (c! "m"))) (some (idE (c! "warning")))),
    .mk none (.call (.assoc (.lit (.ident (c! "p"))) [.pos (.desig (.expr (idE (c! "x"))))])),
    .mk none (.var (.simple (idT (c! "v")) (idE (c! "a")))),
    .mk none (.ret (some (idE (c! "v"))))])
  none)

theorem ok_idN (s : Str) : okName (.lit (.ident s)) := by simp [okName, litOk]; exact ⟨_, rfl⟩

theorem ok_opt (s : Str) : okOpt (some (idE s)) := by intro e he; cases he; exact ok_idE s

theorem ok_sigS (d s : Str) : okSeq (sigS d s) := by
  simp only [sigS, okSeq, okSeqKind, okSig, SeqKind.endLabel, idT, okTarget]
  exact ⟨⟨ok_idN d, _, rfl, ok_idE s⟩, .inl trivial⟩

theorem ok_idP (s : Str) : okSimple (.prim (idP s)) := by
  simp only [idP, okSimple, okPrimary, okName, litOk]; exact ⟨_, rfl⟩

theorem ok_exSeq : okSeq exSeq := by
  simp only [exSeq, okSeq, okSeqKind, okSeqs, okElsIfs, okSeqElse, okAlts, okChoices, okChoice, SeqKind.endLabel, okIter, okDiscr, okRange,
    okVar, idT, okTarget, okCall, okName, okAssocs, okAssoc, okActual, okDesig]
  refine ⟨⟨ok_idE _, ⟨⟨⟨trivial, ok_idE _, ⟨⟨ok_idP _, ok_idP _, trivial⟩, ⟨ok_sigS _ _, trivial⟩, ⟨trivial, trivial⟩, ⟨⟨trivial, .inl trivial⟩, trivial⟩, trivial⟩, by decide⟩,
    .inr trivial⟩, trivial⟩, ⟨ok_idE _, ⟨⟨⟨⟨⟨_, rfl⟩, trivial⟩, ⟨ok_opt _, .inl trivial⟩, trivial⟩, .inl trivial⟩, trivial⟩, trivial⟩,
    ⟨⟨?_, ok_opt _, ?_, ?_⟩, .inl trivial⟩, ⟨⟨ok_idE _, ok_opt _, ok_opt _, by simp⟩, .inl trivial⟩, ⟨⟨⟨⟨_, rfl⟩, ok_idE _, trivial⟩, ?_⟩, .inl trivial⟩,
    ⟨⟨⟨_, rfl⟩, ok_idE _⟩, .inl trivial⟩, ⟨ok_opt _, .inl trivial⟩, trivial⟩, .inl trivial⟩
  · intro n hn; simp only [List.mem_singleton] at hn; subst hn; exact ok_idN _
  · intro e he; cases he; simp only [okExpression, okSimple, okPrimary, okName, litOk]; exact ⟨⟨_, rfl⟩, _, rfl⟩
  · intro e he; cases he; trivial
  · intro s hs; simp only [List.mem_cons, List.not_mem_nil, or_false] at hs
    rcases hs with rfl | rfl | rfl | rfl <;> simp [procName]

example : ∃ os, visitSeqs [exSeq, exSeq] = .ok os := by
  obtain ⟨os, h, -⟩ := C83_statements_meaning_partial Term.alg STerm.alg Term.tok Term.agrees STerm.agrees [exSeq, exSeq] (by
    simp only [okSeqs]; exact ⟨ok_exSeq, ok_exSeq, trivial⟩)
  exact ⟨os, h⟩

/-! ## What is lost -/

/-- C83 is violated by `wait`: `wait on t;` (wait for an event) and `wait for t;` (wait for some time) have the same AST. -/
theorem C83_violated_wait (t : Str) : visitSeq (.mk none (.wait [.lit (.ident t)] none none)) = visitSeq (.mk none (.wait [] none (some (idE t)))) ∧
    evSeq Term.alg STerm.alg (.mk none (.wait [.lit (.ident t)] none none)) ≠ evSeq Term.alg STerm.alg (.mk none (.wait [] none (some (idE t)))) := by
  constructor
  · simp [visitSeq, visitSeqKind, visitWait, visitNames, visitUntil, visitOpt, idE, idP, visitExpression, visitSimple, visitPrimary, visitName, visitNameLit,
      bind, Except.bind, pure, Except.pure]
  · simp [evSeq, evSeqKind, evLabel, STerm.alg, STerm.vals]

/-- C83 is violated by `assert`: `assert c report s;` and `assert c severity s;` have the same AST. -/
theorem C83_violated_assert (c s : Expression) : visitSeq (.mk none (.assert_ c (some s) none)) = visitSeq (.mk none (.assert_ c none (some s))) ∧
    evSeq Term.alg STerm.alg (.mk none (.assert_ c (some s) none)) ≠ evSeq Term.alg STerm.alg (.mk none (.assert_ c none (some s))) := by
  constructor
  · simp [visitSeq, visitSeqKind, visitAssertion, visitOpt, bind, Except.bind, pure, Except.pure]
  · simp [evSeq, evSeqKind, evLabel, STerm.alg, STerm.opt]

/-- C83 is violated by `force`: `t <= force e;` has the AST of `t <= e;`. -/
theorem C83_violated_force (t : Target) (m : Option ForceMode) (e : Expression) :
    visitSeq (.mk none (.sig (.force t m e))) = visitSeq (.mk none (.sig (.wave t none (.elems ⟨e, none⟩ [])))) ∧
    evSeq Term.alg STerm.alg (.mk none (.sig (.force t m e))) ≠ evSeq Term.alg STerm.alg (.mk none (.sig (.wave t none (.elems ⟨e, none⟩ [])))) := by
  constructor
  · simp only [visitSeq, visitSeqKind, visitSigAssign, visitWaveform, visitWaveElem, visitWaveTail]
    cases visitExpression e <;> rfl
  · simp [evSeq, evSeqKind, evLabel, evSigAssign, evDelay, STerm.alg]

/-- C83 is violated by the delay mechanism: `t <= transport w;` has the AST of `t <= w;`. -/
theorem C83_violated_delay (t : Target) (d : Delay) (w : Waveform) :
    visitSeq (.mk none (.sig (.wave t (some d) w))) = visitSeq (.mk none (.sig (.wave t none w))) ∧
    evSeq Term.alg STerm.alg (.mk none (.sig (.wave t (some .transport) w))) ≠ evSeq Term.alg STerm.alg (.mk none (.sig (.wave t none w))) := by
  constructor
  · simp [visitSeq, visitSeqKind, visitSigAssign]
  · simp [evSeq, evSeqKind, evLabel, evSigAssign, evDelay, STerm.alg]

/-- C83 is violated by matching case statements: `case? e is ...` has the AST of `case e is ...`. -/
theorem C83_violated_case (e : Expression) (alts : List CaseAlt) :
    visitSeq (.mk none (.case_ true e alts none)) = visitSeq (.mk none (.case_ false e alts none)) ∧
    evSeq Term.alg STerm.alg (.mk none (.case_ true e alts none)) ≠ evSeq Term.alg STerm.alg (.mk none (.case_ false e alts none)) := by
  constructor
  · simp [visitSeq, visitSeqKind]
  · simp [evSeq, evSeqKind, evLabel, STerm.alg, STerm.flag]

/-- C83 is violated by selected signal assignments (`with e select t <= ...;`) in a process: a null pointer stands for the statement. -/
theorem C83_violated_selected (e : Expression) (q : Bool) (t : Target) (d : Option Delay) (l : List (Waveform × List Choice)) :
    visitSeqs [.mk none (.sig (.sel e q t d l))] = .ok [.null] := by
  simp [visitSeqs, visitSeq, visitSeqKind, visitSigAssign, bind, Except.bind, pure, Except.pure]

/-- C83 is violated by selected signal assignments inside another statement, or with a label: undefined behaviour (a failed `assert`
or the use of a null pointer). -/
theorem C83_violated_selected_ub (c e : Expression) (q : Bool) (t : Target) (d : Option Delay) (l : List (Waveform × List Choice)) (x : Expr)
    (hc : visitExpression c = .ok x) (lb : Str) :
    visitSeq (.mk none (.if_ c [.mk none (.sig (.sel e q t d l))] [] .none none)) = .error .ub ∧
    visitSeq (.mk (some lb) (.sig (.sel e q t d l))) = .error .ub := by
  constructor
  · simp [visitSeq, visitSeqKind, visitSeqsNN, visitSigAssign, hc, bind, Except.bind, pure, Except.pure]
  · simp [visitSeq, visitSeqKind, visitSigAssign, bind, Except.bind]

example : ∃ x, visitExpression (idE (c! "a")) = .ok x := ⟨.id none (c! "a"), by
  simp [idE, idP, visitExpression, visitSimple, visitPrimary, visitName, visitNameLit]⟩

/-- C83 is violated by selected variable assignments: `with e select t := ...;` becomes an assignment to the selector `e`; neither the
target nor the values are in the AST. -/
theorem C83_violated_selected_variable (s : Str) (q : Bool) (t : Target) (l : List (Expression × List Choice)) :
    visitSeq (.mk none (.var (.sel (idE s) q t l))) = .ok (.assign {} (.id none s) (.notImpl none) .null none true) := by
  simp [visitSeq, visitSeqKind, visitVarAssign, idE, idP, visitExpression, visitSimple, visitPrimary, visitName, visitNameLit, mkAssign, bind, Except.bind, pure, Except.pure]

/-- C83 is violated by conditional variable assignments and by `release`: the value is not in the AST. -/
theorem C83_violated_conditional_variable (s : Str) (c : CondExprs) (m : Option ForceMode) :
    visitSeq (.mk none (.var (.cond (idT s) c))) = .ok (.assign {} (.id none s) (.notImpl none) .null none true) ∧
    visitSeq (.mk none (.sig (.release (idT s) m))) = .ok (.assign {} (.id none s) (.notImpl none) .null none false) ∧
    visitSeq (.mk none (.sig (.condForce (idT s) m c))) = .ok (.assign {} (.id none s) (.notImpl none) .null none false) := by
  refine ⟨?_, ?_, ?_⟩ <;>
  simp [visitSeq, visitSeqKind, visitVarAssign, visitSigAssign, idT, visitTarget, visitName, visitNameLit, mkAssign, bind, Except.bind, pure, Except.pure]

/-- C83: a label that is repeated behind `end` is stored twice. -/
theorem C83_violated_label (l : Str) (b : List Seq) (o : Obj) (h : visitSeq (.mk (some l) (.loop .forever b (some l))) = .ok o) :
    ∃ x, o = .while_ ⟨[l, l], false⟩ (.id none (c! "True")) x := by
  simp only [visitSeq, visitSeqKind] at h
  obtain ⟨y, hy, h⟩ := bind_ok h
  obtain ⟨z, hz, hy⟩ := bind_ok hy
  obtain ⟨w, hw, hy⟩ := bind_ok hy
  cases hw
  cases hy
  cases h
  exact ⟨_, rfl⟩

example : ∃ o, visitSeq (.mk (some (c! "l")) (.loop .forever [sigS (c! "a") (c! "b")] (some (c! "l")))) = .ok o := by
  simp [sigS, visitSeq, visitSeqKind, visitSeqsNN, idE, idP, idT, visitExpression, visitSimple, visitPrimary, visitName, visitNameLit, visitTarget, visitSigAssign,
    visitWaveform, visitWaveElem, visitWaveTail, mkAssign, mkLoop, appendLabel, pushLabel, Obj.mapInfo, bind, Except.bind, pure, Except.pure]

end Verif.Vhdl
