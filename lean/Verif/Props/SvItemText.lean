import Verif.SvItemGood
import Verif.Props.SvModule
import Verif.Props.SvStmText
/-!
# Properties of the way from the tokens and characters of SystemVerilog items to the AST (C126, C127)
-/
namespace Verif.Sv
open P Verif.Spec.SvLrm Verif.Spec.Sv

/-- C126 (supported fragment): an item of a module or generate block written by the rules of the LRM, at any place where it is not followed by `:`, nor
by an `else` that belongs to it, is parsed completely and as this item, and its objects have the meaning the LRM gives to the text, whatever the
operators, statements and items mean. `follow` says with which rests the parse of the file succeeds. Missing: the forms of items which `SItem` does not
have (declarations of nets and variables of types other than vectors, of parameters which are not local or of types other than vectors, types, tasks, functions and classes, gates, primitives, assertions, attributes, labels in front of
blocks, drive strengths and delays of assignments, arrays of instances, connections `.i`, parameters by position, see
`C126_violated_instance_taken_for_primitive`); for the AST also what `SItem.Ok` excludes, see C76. -/
theorem C126_item_text_partial {V S W : Type} (A : Alg V) (B : SAlg V S) (N : MAlg V S W) (leaf : Expr → V) (hA : Agrees A leaf) (hB : SAgrees A B) (hN : MAgrees N)
    (R : Rules) (C : StmRules) (G : ItemRules) (g : SItem) (w : List STok) (h : g.Toks w) (rest : List STok)
    (hr : ∀ y l, rest = y :: l → y.ty ≠ .COLON ∧ (g.openIf = true → y.ty ≠ .KW_ELSE)) (follow : List STok → Bool) (hf : follow rest = true) :
    ∃ t, parseGenerateItem R C G follow (w ++ rest) = some (t, rest) ∧ evGItem A B N t = g.eval A B N ∧
      (g.Ok → ∃ os, visitGItem t = .ok os ∧ astItems A B N leaf os = some (g.eval A B N)) := by
  obtain ⟨t, ht, f⟩ := good_item (A := A) (Bs := B) (N := N) (B := R) (C := C) (G := G) (M := 7 * (w ++ rest).length + 7) (m := (w ++ rest).length) (by omega)
    ((w ++ rest).length + 1) (Nat.le_refl _) g w h (by rw [List.length_append]; omega) rest hr
  refine ⟨t, f.find hf, ht.ev, fun hok => ?_⟩
  obtain ⟨o, h1, h2, -⟩ := gItem_eval (leaf := leaf) hA hB hN t (ht.ok hok)
  exact ⟨o, h1, by rw [h2, ht.ev]⟩

/-- Without the rules which are not modelled. -/
def exItemRules : ItemRules where
  override := P.fail
  gate := P.fail
  driveStrength := P.fail
  defaultClocking := P.fail
  chargeStrength := P.fail
  task := P.fail
  routine := P.fail
  clocking := P.fail
  assertion := P.fail
  classes := P.fail
  elabTask := P.fail
  externTf := P.fail
  specparam := P.fail
  other := P.fail
  override_no := ⟨rfl, fun _ _ _ => rfl⟩
  gate_no := ⟨rfl, fun _ _ _ => rfl⟩
  drive_no := ⟨rfl, fun _ _ _ => rfl⟩
  default_no := ⟨rfl, fun _ _ _ => rfl⟩
  charge_no := ⟨rfl, fun _ _ _ => rfl⟩
  task_no := ⟨rfl, fun _ _ _ => rfl⟩
  routine_no := ⟨rfl, fun _ _ _ => rfl⟩
  clocking_no := ⟨rfl, fun _ _ _ => rfl⟩
  assertion_no := ⟨rfl, fun _ _ _ => rfl⟩
  classes_no := ⟨rfl, fun _ _ _ => rfl⟩
  elab_no := ⟨rfl, fun _ _ _ => rfl⟩
  extern_no := ⟨rfl, fun _ _ _ => rfl⟩
  specparam_no := ⟨rfl, fun _ _ _ => rfl⟩
  other_no := ⟨rfl, fun _ _ _ => rfl⟩

/-- C126: a text has only one reading: two items of the LRM with the same tokens mean the same. -/
theorem C126_one_reading (g g' : SItem) (w : List STok) (h : g.Toks w) (h' : g'.Toks w) {V S W : Type} (A : Alg V) (B : SAlg V S) (N : MAlg V S W) :
    g.eval A B N = g'.eval A B N := by
  obtain ⟨t, ht, f⟩ := good_item (A := A) (Bs := B) (N := N) (B := exRules) (C := exStmRules) (G := exItemRules) (M := w.length + 2) (m := w.length) (by omega)
    w.length (by omega) g w h (Nat.le_refl _) [] (fun _ _ e => by cases e)
  obtain ⟨t', ht', f'⟩ := good_item (A := A) (Bs := B) (N := N) (B := exRules) (C := exStmRules) (G := exItemRules) (M := w.length + 2) (m := w.length) (by omega)
    w.length (by omega) g' w h' (Nat.le_refl _) [] (fun _ _ e => by cases e)
  have e1 := f.find (q := fun _ => true) rfl
  rw [f'.find (q := fun _ => true) rfl] at e1
  cases e1
  rw [← ht.ev, ht'.ev]

/-! ## An example -/

def exPosedge : SEvent := .list (.pos, exNmE (c! "clk")) []
def exPosedgeText : List STok := [sym .AT, sym .LPAREN, sym .KW_POSEDGE, idTok (c! "clk"), sym .RPAREN]
theorem exPosedge_toks : exPosedge.Toks exPosedgeText :=
  ⟨[_], _, rfl, ⟨_, rfl, rfl⟩, [_], _, rfl, ⟨_, rfl, rfl⟩, [_, _], _, rfl, ⟨[_], [_], rfl, ⟨_, rfl, rfl⟩, exNmE_toks _⟩, [], _, rfl, rfl, ⟨_, rfl, rfl⟩⟩

/-- `sub # ( . W ( w ) ) u ( . a ( x ) , . b ( ) , . * ) , v ( x , , y ) ;` -/
def exInst : SItem := .inst ⟨false, c! "sub"⟩ [(⟨false, c! "W"⟩, exNmE (c! "w"))]
  (⟨false, c! "u"⟩, .named (.val ⟨false, c! "a"⟩ (exNmE (c! "x"))) [.empty ⟨false, c! "b"⟩, .star])
  [(⟨false, c! "v"⟩, .pos (some (exNmE (c! "x"))) [none, some (exNmE (c! "y"))])]
def exInstText : List STok := [idTok (c! "sub"), sym .HASH, sym .LPAREN, sym .DOT, idTok (c! "W"), sym .LPAREN, idTok (c! "w"), sym .RPAREN, sym .RPAREN,
  idTok (c! "u"), sym .LPAREN, sym .DOT, idTok (c! "a"), sym .LPAREN, idTok (c! "x"), sym .RPAREN, sym .COMMA, sym .DOT, idTok (c! "b"), sym .LPAREN, sym .RPAREN, sym .COMMA, sym .DOT, sym .MUL,
  sym .RPAREN, sym .COMMA, idTok (c! "v"), sym .LPAREN, idTok (c! "x"), sym .COMMA, sym .COMMA, idTok (c! "y"), sym .RPAREN, sym .SEMI]

theorem exInst_toks : exInst.Toks exInstText := by
  rw [exInst, SItem.Toks]
  refine ⟨[_], _, rfl, ⟨_, rfl, rfl, by decide⟩, (exInstText.drop 1).take 8, _, rfl, ?_, (exInstText.drop 9).take 16, _, rfl, ?_, (exInstText.drop 25).take 8, [_], rfl, ?_, ⟨_, rfl, rfl⟩⟩
  · exact ⟨[_], _, rfl, ⟨_, rfl, rfl⟩, [_], _, rfl, ⟨_, rfl, rfl⟩, (exInstText.drop 3).take 5, [_], rfl,
      ⟨_, [], rfl, ⟨[_], _, rfl, ⟨_, rfl, rfl⟩, [_], _, rfl, ⟨_, rfl, rfl, by decide⟩, [_], _, rfl, ⟨_, rfl, rfl⟩, [_], [_], rfl, exNmE_toks _, ⟨_, rfl, rfl⟩⟩, rfl⟩, ⟨_, rfl, rfl⟩⟩
  · refine ⟨[_], _, rfl, ⟨_, rfl, rfl, by decide⟩, [_], _, rfl, ⟨_, rfl, rfl⟩, (exInstText.drop 11).take 13, [_], rfl, ?_, ⟨_, rfl, rfl⟩⟩
    rw [SConns.Toks]
    refine ⟨(exInstText.drop 11).take 5, _, rfl, ?_, [_], _, rfl, ⟨_, rfl, rfl⟩, (exInstText.drop 17).take 4, _, rfl, ?_, [_], _, rfl, ⟨_, rfl, rfl⟩, [_, _], [], rfl, ?_, rfl⟩ <;>
      rw [SNamedConn.Toks]
    · exact ⟨[_], _, rfl, ⟨_, rfl, rfl⟩, [_], _, rfl, ⟨_, rfl, rfl, by decide⟩, [_], _, rfl, ⟨_, rfl, rfl⟩, [_], [_], rfl, exNmE_toks _, ⟨_, rfl, rfl⟩⟩
    · exact ⟨[_], _, rfl, ⟨_, rfl, rfl⟩, [_], _, rfl, ⟨_, rfl, rfl, by decide⟩, [_], [_], rfl, ⟨_, rfl, rfl⟩, ⟨_, rfl, rfl⟩⟩
    · exact ⟨[_], [_], rfl, ⟨_, rfl, rfl⟩, ⟨_, rfl, rfl⟩⟩
  · refine ⟨[_], _, rfl, ⟨_, rfl, rfl⟩, (exInstText.drop 26).take 7, [], rfl, ?_, rfl⟩
    refine ⟨[_], _, rfl, ⟨_, rfl, rfl, by decide⟩, [_], _, rfl, ⟨_, rfl, rfl⟩, (exInstText.drop 28).take 4, [_], rfl, ?_, ⟨_, rfl, rfl⟩⟩
    rw [SConns.Toks]
    exact ⟨[_], _, rfl, exNmE_toks _, [_], _, rfl, ⟨_, rfl, rfl⟩, [], _, rfl, rfl, [_], _, rfl, ⟨_, rfl, rfl⟩, [_], [], rfl, exNmE_toks _, rfl⟩

theorem exId_ok {s : Str} (h : isKw s = false) : okIdent ⟨false, s⟩ := ⟨s, by simp [identStr], h⟩

theorem exInst_ok : exInst.Ok := by
  rw [exInst, SItem.Ok]
  refine ⟨by decide +kernel, ?_, ?_⟩
  · simp only [List.mem_singleton, forall_eq]; exact ⟨exId_ok (by decide +kernel), exNmE_ok (by decide +kernel)⟩
  · intro x hx
    simp only [List.mem_cons, List.not_mem_nil, or_false] at hx
    rcases hx with rfl | rfl
    · refine ⟨exId_ok (by decide +kernel), ?_⟩
      simp only [SConns.Ok, List.forall_mem_cons, SNamedConn.Ok]
      exact ⟨⟨exId_ok (by decide +kernel), exNmE_ok (by decide +kernel), rfl⟩, exId_ok (by decide +kernel), trivial, by simp⟩
    · refine ⟨exId_ok (by decide +kernel), ?_⟩
      simp only [SConns.Ok, List.forall_mem_cons, connOk]
      exact ⟨⟨exNmE_ok (by decide +kernel), rfl⟩, trivial, ⟨exNmE_ok (by decide +kernel), rfl⟩, by simp⟩

/-- `if ( c ) assign x = y ; else initial x = y ;` -/
def exGIf : SItem := .iteElse (exNmE (c! "c")) (.assign (exNm (c! "x"), exNmE (c! "y")) []) (.initial (exSet (c! "x") (c! "y")))
def exGIfText : List STok := [sym .KW_IF, sym .LPAREN, idTok (c! "c"), sym .RPAREN, sym .KW_ASSIGN] ++ exSetText (c! "x") (c! "y") ++ [sym .KW_ELSE, sym .KW_INITIAL] ++ exSetText (c! "x") (c! "y")
theorem exGIf_toks : exGIf.Toks exGIfText := by
  rw [exGIf, SItem.Toks]
  refine ⟨rfl, [_], _, rfl, ⟨_, rfl, rfl⟩, [_, _, _], _, rfl, ⟨[_], _, rfl, ⟨_, rfl, rfl⟩, [_], [_], rfl, exNmE_toks _, ⟨_, rfl, rfl⟩⟩, (exGIfText.drop 4).take 5, _, rfl, ?_, [_], _, rfl, ⟨_, rfl, rfl⟩, ?_⟩ <;>
    rw [SItem.Toks]
  · exact ⟨[_], _, rfl, ⟨_, rfl, rfl⟩, [_, _, _], _, rfl, ⟨rfl, [_], _, rfl, exNm_toks _, [_], [_], rfl, ⟨_, rfl, rfl⟩, exNmE_toks _⟩, [], [_], rfl, rfl, ⟨_, rfl, rfl⟩⟩
  · exact ⟨[_], _, rfl, ⟨_, rfl, rfl⟩, exSet_toks _ _⟩
theorem exGIf_ok : exGIf.Ok := by
  simp only [exGIf, SItem.Ok, exSet, SStm.Ok]
  refine ⟨exNmE_ok (by decide +kernel), ?_, ⟨⟨exNm_ok (by decide +kernel), exNmE_ok (by decide +kernel)⟩, rfl⟩, rfl⟩
  simp only [List.mem_singleton, forall_eq]; exact ⟨exNm_ok (by decide +kernel), exNmE_ok (by decide +kernel)⟩

/-- `case ( c ) a : ; default : <if> endcase` -/
def exGCase : SItem := .case (exNmE (c! "c")) (.exprs (exNmE (c! "a")) [] .semi) [.dflt true exGIf]
def exGCaseText : List STok := [sym .KW_CASE, sym .LPAREN, idTok (c! "c"), sym .RPAREN, idTok (c! "a"), sym .COLON, sym .SEMI, sym .KW_DEFAULT, sym .COLON] ++ exGIfText ++ [sym .KW_ENDCASE]
theorem exGCase_toks : exGCase.Toks exGCaseText := by
  rw [exGCase, SItem.Toks]
  refine ⟨[_], _, rfl, ⟨_, rfl, rfl⟩, [_, _, _], _, rfl, ⟨[_], _, rfl, ⟨_, rfl, rfl⟩, [_], [_], rfl, exNmE_toks _, ⟨_, rfl, rfl⟩⟩, [_, _, _], _, rfl, ?_,
    sym .KW_DEFAULT :: sym .COLON :: (exGIfText ++ []), [_], rfl, ?_, ⟨_, rfl, rfl⟩⟩
  · rw [SGCase.Toks, expsToks, SItem.Toks]
    exact ⟨[_], _, rfl, exNmE_toks _, [], _, rfl, rfl, [_], [_], rfl, ⟨_, rfl, rfl⟩, ⟨_, rfl, rfl⟩⟩
  · rw [gcasesToks, gcasesToks, SGCase.Toks]
    exact ⟨sym .KW_DEFAULT :: sym .COLON :: exGIfText, [], rfl, ⟨[_], _, rfl, ⟨_, rfl, rfl⟩, [_], _, rfl, ⟨_, rfl, rfl⟩, exGIf_toks⟩, rfl⟩
theorem exGCase_ok : exGCase.Ok := by
  simp only [exGCase, SItem.Ok, SGCase.Ok, gcasesOk, expsOk]
  exact ⟨exNmE_ok (by decide +kernel), ⟨exNmE_ok (by decide +kernel), trivial, trivial, rfl⟩, ⟨⟨exGIf_ok, rfl⟩, trivial⟩, by decide⟩

/-- `always_ff @ ( posedge clk ) x = y ;` -/
def exFf : SItem := .alwaysAt .ff exPosedge (exSet (c! "x") (c! "y"))
def exFfText : List STok := sym .KW_ALWAYS_FF :: (exPosedgeText ++ exSetText (c! "x") (c! "y"))
theorem exFf_toks : exFf.Toks exFfText := by
  rw [exFf, SItem.Toks]
  refine ⟨[_], _, rfl, ⟨_, rfl, rfl⟩, ?_⟩
  rw [SStm.Toks]
  exact ⟨_, _, rfl, exPosedge_toks, exSet_toks _ _, by intro h; cases h⟩
theorem exFf_ok : exFf.Ok := by
  simp only [exFf, SItem.Ok, exSet, SStm.Ok, SEvent.Ok, exPosedge]
  exact ⟨⟨exNmE_ok (by decide +kernel), by simp⟩, exNm_ok (by decide +kernel), exNmE_ok (by decide +kernel)⟩

/-- `for ( genvar i = n ; i < m ; i ++ ) begin : g <inst> <always_ff> always_comb x = y ; genvar j ; <case> end : g` -/
def exLoop : SItem := .for_ true ⟨false, c! "i"⟩ (exNmE (c! "n")) (.bin (exNmE (c! "i")) .lt (exNmE (c! "m"))) (.incDec false true ⟨false, c! "i"⟩)
  (.block (some ⟨false, c! "g"⟩) [exInst, exFf, .always .comb (exSet (c! "x") (c! "y")), .genvar ⟨false, c! "j"⟩ [], exGCase] (some ⟨false, c! "g"⟩))
def exCombText : List STok := sym .KW_ALWAYS_COMB :: exSetText (c! "x") (c! "y")
def exGenvarText : List STok := [sym .KW_GENVAR, idTok (c! "j"), sym .SEMI]
def exLoopText : List STok := [sym .KW_FOR, sym .LPAREN, sym .KW_GENVAR, idTok (c! "i"), sym .ASSIGN, idTok (c! "n"), sym .SEMI, idTok (c! "i"), sym .LT, idTok (c! "m"), sym .SEMI,
  idTok (c! "i"), sym .INCR, sym .RPAREN, sym .KW_BEGIN, sym .COLON, idTok (c! "g")] ++ (exInstText ++ (exFfText ++ (exCombText ++ (exGenvarText ++ (exGCaseText ++ []))))) ++
  [sym .KW_END, sym .COLON, idTok (c! "g")]

theorem exLoop_toks : exLoop.Toks exLoopText := by
  have hb : labelToks (some ⟨false, c! "g"⟩) [sym .COLON, idTok (c! "g")] := ⟨[_], [_], rfl, ⟨_, rfl, rfl⟩, ⟨_, rfl, rfl, by decide⟩⟩
  rw [exLoop, SItem.Toks]
  refine ⟨[_], _, rfl, ⟨_, rfl, rfl⟩, [_], _, rfl, ⟨_, rfl, rfl⟩, [_], _, rfl, ⟨_, rfl, rfl⟩, [_], _, rfl, ⟨_, rfl, rfl, by decide⟩, [_], _, rfl, ⟨_, rfl, rfl⟩, [_], _, rfl, exNmE_toks _,
    [_], _, rfl, ⟨_, rfl, rfl⟩, [_, _, _], _, rfl, ?_, [_], _, rfl, ⟨_, rfl, rfl⟩, [_, _], _, rfl, ?_, [_], _, rfl, ⟨_, rfl, rfl⟩, ?_⟩
  · rw [SExp.Toks]
    exact ⟨⟨by decide, by decide⟩, [_], _, rfl, exNmE_toks _, [_], [_], rfl, ⟨_, rfl, rfl⟩, exNmE_toks _⟩
  · rw [SGenStep.Toks]; exact ⟨[_], [_], rfl, ⟨_, rfl, rfl, by decide⟩, ⟨_, rfl, rfl⟩⟩
  · rw [SItem.Toks]
    refine ⟨[_], _, rfl, ⟨_, rfl, rfl⟩, [_, _], _, rfl, hb, exInstText ++ (exFfText ++ (exCombText ++ (exGenvarText ++ (exGCaseText ++ [])))), _, rfl, ?_, [_], _, rfl, ⟨_, rfl, rfl⟩, hb⟩
    rw [itemsToks, itemsToks, itemsToks, itemsToks, itemsToks, itemsToks]
    refine ⟨_, _, rfl, exInst_toks, _, _, rfl, exFf_toks, exCombText, _, rfl, ?_, exGenvarText, _, rfl, ?_, _, [], rfl, exGCase_toks, rfl⟩ <;> rw [SItem.Toks]
    · exact ⟨rfl, rfl, [_], _, rfl, ⟨_, rfl, rfl⟩, exSet_toks _ _⟩
    · exact ⟨[_], _, rfl, ⟨_, rfl, rfl⟩, [_], _, rfl, ⟨_, rfl, rfl, by decide⟩, [], [_], rfl, rfl, ⟨_, rfl, rfl⟩⟩

theorem exLoop_ok : exLoop.Ok := by
  have hg : okGenLabel (some ⟨false, c! "g"⟩) := by rintro _ ⟨⟩; exact exId_ok (by decide +kernel)
  simp only [exLoop, SItem.Ok, itemsOk, SGenStep.Ok]
  refine ⟨exId_ok (by decide +kernel), exNmE_ok (by decide +kernel), ?_, exId_ok (by decide +kernel), hg, hg, by simp, exInst_ok, exFf_ok, ⟨?_, by decide⟩, ?_, exGCase_ok, trivial⟩
  · rw [SExp.Ok]; exact ⟨exNmE_ok (by decide +kernel), exNmE_ok (by decide +kernel), by decide⟩
  · rw [exSet, SStm.Ok]; exact ⟨exNm_ok (by decide +kernel), exNmE_ok (by decide +kernel)⟩
  · simp only [List.mem_singleton, forall_eq]; exact exId_ok (by decide +kernel)

example : ∃ t os, parseGenerateItem exRules exStmRules exItemRules (fun _ => true) (exLoopText ++ [sym .KW_ENDGENERATE]) = some (t, [sym .KW_ENDGENERATE]) ∧ visitGItem t = .ok os ∧
    astItems Term.alg STerm.alg MTerm.alg Term.tok os = some (exLoop.eval Term.alg STerm.alg MTerm.alg) := by
  obtain ⟨t, h1, -, h2⟩ := C126_item_text_partial Term.alg STerm.alg MTerm.alg Term.tok Term.agrees STerm.agrees MTerm.agrees exRules exStmRules exItemRules exLoop exLoopText exLoop_toks
    [sym .KW_ENDGENERATE] (by rintro _ _ ⟨⟩; decide) (fun _ => true) rfl
  obtain ⟨o, h3, h4⟩ := h2 exLoop_ok
  exact ⟨t, o, h1, h3, h4⟩

example (g : SItem) (h : g.Toks exLoopText) : g.eval Term.alg STerm.alg MTerm.alg = exLoop.eval Term.alg STerm.alg MTerm.alg :=
  C126_one_reading g exLoop exLoopText h exLoop_toks Term.alg STerm.alg MTerm.alg

/-- C126: `m # ( 8 ) u ( a , b ) ;`, an instance of `m` with one parameter by position (LRM A.4.1.1), is taken for an instance of a primitive with
a delay (the alternative `udp_instantiation` is tried first), and those are left out: the AST has no object for it, and no error is reported. With the
parameter by name, the instance is in the AST (`C126_item_text_partial`). -/
theorem C126_violated_instance_taken_for_primitive : ∃ t,
    parseGenerateItem exRules exStmRules exItemRules (fun r => r == [sym .KW_ENDGENERATE]) [idTok (c! "m"), sym .HASH, sym .LPAREN, numTok (c! "8"), sym .RPAREN, idTok (c! "u"),
      sym .LPAREN, idTok (c! "a"), sym .COMMA, idTok (c! "b"), sym .RPAREN, sym .SEMI, sym .KW_ENDGENERATE] = some (t, [sym .KW_ENDGENERATE]) ∧ visitGItem t = .ok [] := by
  refine ⟨.item (.ignored .udp), ?_, ?_⟩
  · kernel_rfl
  · kernel_rfl

end Verif.Sv

namespace Verif.Sv
open Verif.Antlr Verif.Spec Verif.Spec.SvLex

/-- C127 (supported fragment): the text of an item of a module or generate block, with any layout, becomes objects with the meaning the LRM gives to the
text: from characters to the AST. Missing: as in C126 and C112. -/
theorem C127_source_item_partial {V S W : Type} (A : Spec.Sv.Alg V) (B : Spec.Sv.SAlg V S) (N : Spec.Sv.MAlg V S W) (leaf : Expr → V) (hA : Agrees A leaf) (hB : SAgrees A B)
    (hN : MAgrees N) (R : Rules) (C : StmRules) (G : ItemRules) (v : Version) (src : Str) (ts rest : List (LTy × Str)) (hd : Divided .supported v false src (ts ++ rest))
    (g : Spec.SvLrm.SItem) (w r : List STok) (hw : List.Forall₂ SeenAs ts w) (hr : List.Forall₂ SeenAs rest r) (hg : g.Toks w) (hok : g.Ok)
    (he : ∀ y l, r = y :: l → y.ty ≠ .COLON ∧ (g.openIf = true → y.ty ≠ .KW_ELSE)) (follow : List STok → Bool) (hf : follow r = true) :
    ∃ toks t os, lex v.code src = Option.some toks ∧ parseGenerateItem R C G follow (toks.map LTok.tok) = Option.some (t, r) ∧
      visitGItem t = .ok os ∧ Spec.Sv.astItems A B N leaf os = Option.some (g.eval A B N) := by
  obtain ⟨t, h1, -, h2⟩ := C126_item_text_partial A B N leaf hA hB hN R C G g _ hg r he follow hf
  obtain ⟨o, h3, h4⟩ := h2 hok
  refine ⟨_, t, o, C112_elements_partial v src _ hd, ?_, h3, h4⟩
  rw [List.map_map, List.map_append, seen_all hw, seen_all hr]; exact h1

/-- `if(c) m u(a,b);//one` -/
def exGElems : List (LTy × Str) := [(.kw (c! "if"), c! "if"), (.sym (c! "("), c! "("), (.C_IDENTIFIER, c! "c"), (.sym (c! ")"), c! ")"), (.C_IDENTIFIER, c! "m"), (.C_IDENTIFIER, c! "u"),
  (.sym (c! "("), c! "("), (.C_IDENTIFIER, c! "a"), (.sym (c! ","), c! ","), (.C_IDENTIFIER, c! "b"), (.sym (c! ")"), c! ")"), (.sym (c! ";"), c! ";")]
def exGSrc : Str := c! "if(c) m u(a,b);//one\nendgenerate"
def exGS : Spec.SvLrm.SItem := .ite (exNmE (c! "c")) (.inst ⟨false, c! "m"⟩ [] (⟨false, c! "u"⟩, .pos (some (exNmE (c! "a"))) [some (exNmE (c! "b"))]) [])

theorem exG_divided : Divided .supported .v2001 false exGSrc (exGElems ++ [(.kw (c! "endgenerate"), c! "endgenerate")]) := by
  refine elemB (w := c! "if") (kwP (by decide +kernel)) (by decide +kernel) ?_
  refine elemB (w := c! "(") (symP (by decide +kernel)) (by decide +kernel) ?_
  refine elemB (w := c! "c") (nameP (by decide +kernel)) (by decide +kernel) ?_
  refine elemB (w := c! ")") (symP (by decide +kernel)) (by decide +kernel) (blank ?_)
  refine elemB (w := c! "m") (nameP (by decide +kernel)) (by decide +kernel) (blank ?_)
  refine elemB (w := c! "u") (nameP (by decide +kernel)) (by decide +kernel) ?_
  refine elemB (w := c! "(") (symP (by decide +kernel)) (by decide +kernel) ?_
  refine elemB (w := c! "a") (nameP (by decide +kernel)) (by decide +kernel) ?_
  refine elemB (w := c! ",") (symP (by decide +kernel)) (by decide +kernel) ?_
  refine elemB (w := c! "b") (nameP (by decide +kernel)) (by decide +kernel) ?_
  refine elemB (w := c! ")") (symP (by decide +kernel)) (by decide +kernel) ?_
  refine elemB (w := c! ";") (symP (by decide +kernel)) (by decide +kernel) ?_
  refine .line (w := c! "one") (by decide) ?_
  exact elemB (w := c! "endgenerate") (kwP (by decide +kernel)) (by decide +kernel) .nil

example : ∃ toks t os, lex Version.v2001.code exGSrc = Option.some toks ∧
    parseGenerateItem exRules exStmRules exItemRules (fun _ => true) (toks.map LTok.tok) = Option.some (t, [⟨.KW_ENDGENERATE, c! "endgenerate"⟩]) ∧ visitGItem t = .ok os ∧
    Spec.Sv.astItems Term.alg STerm.alg MTerm.alg Term.tok os = Option.some (exGS.eval Term.alg STerm.alg MTerm.alg) := by
  refine C127_source_item_partial Term.alg STerm.alg MTerm.alg Term.tok Term.agrees STerm.agrees MTerm.agrees exRules exStmRules exItemRules .v2001 _ exGElems _ exG_divided exGS
    [⟨.KW_IF, c! "if"⟩, ⟨.LPAREN, c! "("⟩, idTok (c! "c"), ⟨.RPAREN, c! ")"⟩, idTok (c! "m"), idTok (c! "u"), ⟨.LPAREN, c! "("⟩, idTok (c! "a"), ⟨.COMMA, c! ","⟩, idTok (c! "b"), ⟨.RPAREN, c! ")"⟩,
      ⟨.SEMI, c! ";"⟩] _ ?_ (.cons ⟨rfl, .inl rfl⟩ .nil) ?_ ?_ (by rintro y s e; cases e; decide) _ rfl
  · exact .cons ⟨rfl, .inl rfl⟩ (.cons ⟨rfl, .inl rfl⟩ (.cons ⟨rfl, rfl⟩ (.cons ⟨rfl, .inl rfl⟩ (.cons ⟨rfl, rfl⟩ (.cons ⟨rfl, rfl⟩ (.cons ⟨rfl, .inl rfl⟩ (.cons ⟨rfl, rfl⟩
      (.cons ⟨rfl, .inl rfl⟩ (.cons ⟨rfl, rfl⟩ (.cons ⟨rfl, .inl rfl⟩ (.cons ⟨rfl, .inl rfl⟩ .nil)))))))))))
  · rw [exGS, Spec.SvLrm.SItem.Toks]
    refine ⟨[_], _, rfl, ⟨_, rfl, rfl⟩, [_, _, _], _, rfl, ⟨[_], _, rfl, ⟨_, rfl, rfl⟩, [_], [_], rfl, exNmE_toks _, ⟨_, rfl, rfl⟩⟩, ?_⟩
    rw [Spec.SvLrm.SItem.Toks]
    refine ⟨[_], _, rfl, ⟨_, rfl, rfl, by decide⟩, [], _, rfl, rfl, [_, _, _, _, _, _], _, rfl, ⟨[_], _, rfl, ⟨_, rfl, rfl, by decide⟩, [_], _, rfl, ⟨_, rfl, rfl⟩, [_, _, _], [_], rfl, ?_, ⟨_, rfl, rfl⟩⟩,
      [], [_], rfl, rfl, ⟨_, rfl, rfl⟩⟩
    rw [Spec.SvLrm.SConns.Toks]
    exact ⟨[_], _, rfl, exNmE_toks _, [_], _, rfl, ⟨_, rfl, rfl⟩, [_], [], rfl, exNmE_toks _, rfl⟩
  · simp only [exGS, Spec.SvLrm.SItem.Ok]
    refine ⟨exNmE_ok (by decide +kernel), by decide +kernel, by simp, ?_⟩
    rintro x hx
    cases List.mem_singleton.1 hx
    refine ⟨exId_ok (by decide +kernel), ?_⟩
    intro y hy
    simp only [List.mem_cons, List.not_mem_nil, or_false] at hy
    rcases hy with rfl | rfl <;> exact ⟨exNmE_ok (by decide +kernel), rfl⟩

end Verif.Sv
