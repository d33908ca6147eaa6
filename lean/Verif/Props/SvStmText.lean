import Verif.SvStmGood
import Verif.Props.SvStm
import Verif.Props.SvLex
/-!
# Properties of the way from the tokens and characters of SystemVerilog statements to the AST (C124, C125)
-/
namespace Verif.Sv
open P Verif.Spec.SvLrm Verif.Spec.Sv

/-- C124 (supported fragment): a procedural statement written by the rules of the LRM, at any place where it is not followed by `:`, nor by an
`else` that belongs to it, is parsed completely and as this statement, and its AST has the meaning the LRM gives to the text, whatever the operators
and statements mean. `follow` says with which rests the parse of the file succeeds. Missing: the forms of statements which `SStm` does not have
(declarations in blocks, attributes, `new`, `unique if`, `&&&` and `matches`, `case ... inside`, `foreach`, `randcase`, `disable`, `wait`, event
triggers, assertions, procedural continuous assignments, clocking drives, cycle delays, `iff`, members of structures as targets); the ambiguous texts
of `entryToks` and `SStm.timing`; for the AST also what `SStm.Ok` excludes, see C68. -/
theorem C124_statement_text_partial {V S : Type} (A : Alg V) (B : SAlg V S) (leaf : Expr → V) (hA : Agrees A leaf) (hB : SAgrees A B) (R : Rules) (C : StmRules)
    (s : SStm) (w : List STok) (h : s.Toks w) (rest : List STok)
    (hr : ∀ y l, rest = y :: l → y.ty ≠ .COLON ∧ (s.openIf = true → y.ty ≠ .KW_ELSE))
    (follow : List STok → Bool) (hf : follow rest = true) :
    ∃ t, parseStatement R C follow (w ++ rest) = some (t, rest) ∧ evStmN A B t = s.eval A B ∧
      (s.Ok → ∃ o, visitStmN t = .ok o ∧ astStm A B leaf o = some (s.eval A B)) := by
  obtain ⟨t, ht, f⟩ := good_stm (A := A) (Bs := B) (B := R) (C := C) (7 * (w ++ rest).length + 7) ((w ++ rest).length + 1) (by omega) s w h
    (by rw [List.length_append]; omega) rest hr
  refine ⟨t, f.find hf, ht.ev, fun hok => ?_⟩
  obtain ⟨o, h1, h2, -⟩ := stmN_eval (leaf := leaf) hA hB t (ht.ok hok)
  exact ⟨o, h1, by rw [h2, ht.ev]⟩

/-- Without the rules which are not modelled. -/
def exStmRules : StmRules := ⟨P.fail, P.fail, P.fail, P.fail, P.fail, fun _ _ _ => rfl, fun _ _ _ => rfl, fun _ _ _ => rfl⟩

/-- C124: a text has only one reading: two statements of the LRM with the same tokens mean the same. -/
theorem C124_one_reading (s s' : SStm) (w : List STok) (h : s.Toks w) (h' : s'.Toks w) {V S : Type} (A : Alg V) (B : SAlg V S) : s.eval A B = s'.eval A B := by
  obtain ⟨t, ht, f⟩ := good_stm (A := A) (Bs := B) (B := exRules) (C := exStmRules) (w.length + 1) w.length (by omega) s w h (Nat.le_refl _) []
    (fun _ _ e => by cases e)
  obtain ⟨t', ht', f'⟩ := good_stm (A := A) (Bs := B) (B := exRules) (C := exStmRules) (w.length + 1) w.length (by omega) s' w h' (Nat.le_refl _) []
    (fun _ _ e => by cases e)
  have e1 := f.find (q := fun _ => true) rfl
  rw [f'.find (q := fun _ => true) rfl] at e1
  cases e1
  rw [← ht.ev, ht'.ev]

/-- C124 (LRM 12.4): in `if (c) if (d) t else f` the `else` belongs to the second `if`. Missing: as in `C124_statement_text_partial`. -/
theorem C124_dangling_else_partial {V S : Type} (A : Alg V) (B : SAlg V S) (leaf : Expr → V) (hA : Agrees A leaf) (hB : SAgrees A B) (R : Rules) (C : StmRules)
    (c d : SExp) (t f : SStm) (wc wd wt wf : List STok) (hc : c.Toks wc) (hd : d.Toks wd) (ht : t.Toks wt) (hf : f.Toks wf) (hto : t.openIf = false)
    (hok : (SStm.ite c (.iteElse d t f)).Ok) (i1 o1 c1 i2 o2 c2 el : STok) (hi1 : i1.ty = .KW_IF) (ho1 : o1.ty = .LPAREN) (hc1 : c1.ty = .RPAREN)
    (hi2 : i2.ty = .KW_IF) (ho2 : o2.ty = .LPAREN) (hc2 : c2.ty = .RPAREN) (he : el.ty = .KW_ELSE) (rest : List STok)
    (hr : ∀ y l, rest = y :: l → y.ty ≠ .COLON ∧ y.ty ≠ .KW_ELSE) (follow : List STok → Bool) (hfo : follow rest = true) :
    ∃ x o, parseStatement R C follow (i1 :: o1 :: (wc ++ c1 :: i2 :: o2 :: (wd ++ c2 :: (wt ++ el :: (wf ++ rest))))) = some (x, rest) ∧ visitStmN x = .ok o ∧
      astStm A B leaf o = some (B.ite (c.eval A) (B.ite (d.eval A) (t.eval A B) (some (f.eval A B))) none) := by
  have h2 : (SStm.iteElse d t f).Toks (i2 :: o2 :: (wd ++ c2 :: (wt ++ el :: wf))) := by
    rw [SStm.Toks]
    exact ⟨hto, [i2], _, rfl, ⟨_, rfl, hi2⟩, o2 :: (wd ++ [c2]), wt ++ el :: wf, by simp, ⟨[o2], _, rfl, ⟨_, rfl, ho2⟩, wd, [c2], rfl, hd, ⟨_, rfl, hc2⟩⟩,
      wt, _, rfl, ht, [el], wf, rfl, ⟨_, rfl, he⟩, hf⟩
  have h1 : (SStm.ite c (.iteElse d t f)).Toks (i1 :: o1 :: (wc ++ c1 :: i2 :: o2 :: (wd ++ c2 :: (wt ++ el :: wf)))) := by
    rw [SStm.Toks]
    exact ⟨[i1], _, rfl, ⟨_, rfl, hi1⟩, o1 :: (wc ++ [c1]), _, by simp, ⟨[o1], _, rfl, ⟨_, rfl, ho1⟩, wc, [c1], rfl, hc, ⟨_, rfl, hc1⟩⟩, h2⟩
  obtain ⟨x, e1, -, e2⟩ := C124_statement_text_partial A B leaf hA hB R C _ _ h1 rest (fun y l e => ⟨(hr y l e).1, fun _ => (hr y l e).2⟩) follow hfo
  obtain ⟨o, e3, e4⟩ := e2 hok
  refine ⟨x, o, by simpa using e1, e3, ?_⟩
  rw [e4, SStm.eval, SStm.eval]

/-! ## An example -/

def exNmE (s : Str) : SExp := .prim (exNm s)

/-- `x = y ;` -/
def exSet (x y : Str) : SStm := .assign (exNm x) .assign (exNmE y)
def exSetText (x y : Str) : List STok := [idTok x, sym .ASSIGN, idTok y, sym .SEMI]

theorem exSet_toks (x y : Str) : (exSet x y).Toks (exSetText x y) := by
  rw [exSet, SStm.Toks]
  exact ⟨[_, _, _], [_], rfl, ⟨rfl, [_], _, rfl, exNm_toks _, [_], [_], rfl, ⟨_, rfl, rfl⟩, exNmE_toks _⟩, ⟨_, rfl, rfl⟩⟩

/-- `unique casez ( s ) e , f : x = y ; default ; endcase` -/
def exCaseS : SStm := .case (some .unique) .casez (exNmE (c! "s")) (.exprs (exNmE (c! "e")) [exNmE (c! "f")] (exSet (c! "x") (c! "y"))) [.dflt false .null]
def exCaseSText : List STok := [sym .KW_UNIQUE, sym .KW_CASEZ, sym .LPAREN, idTok (c! "s"), sym .RPAREN, idTok (c! "e"), sym .COMMA, idTok (c! "f"), sym .COLON] ++
  exSetText (c! "x") (c! "y") ++ [sym .KW_DEFAULT, sym .SEMI, sym .KW_ENDCASE]

theorem exCaseS_toks : exCaseS.Toks exCaseSText := by
  rw [exCaseS, SStm.Toks]
  refine ⟨[_], _, rfl, ⟨_, rfl, rfl⟩, [_], _, rfl, ⟨_, rfl, rfl⟩, [_, _, _], _, rfl, ⟨[_], _, rfl, ⟨_, rfl, rfl⟩, [_], [_], rfl, exNmE_toks _, ⟨_, rfl, rfl⟩⟩,
    (exCaseSText.drop 5).take 8, _, rfl, ?_, (exCaseSText.drop 13).take 2, [_], rfl, ?_, ⟨_, rfl, rfl⟩⟩
  · rw [SCase.Toks, expsToks, expsToks]
    exact ⟨[_], _, rfl, exNmE_toks _, [_, _], _, rfl, ⟨[_], _, rfl, ⟨_, rfl, rfl⟩, [_], [], rfl, exNmE_toks _, rfl⟩, [_], _, rfl, ⟨_, rfl, rfl⟩, exSet_toks _ _⟩
  · rw [casesToks, casesToks, SCase.Toks, SStm.Toks]
    exact ⟨_, [], rfl, ⟨[_], [_], rfl, ⟨_, rfl, rfl⟩, ⟨_, rfl, rfl⟩⟩, rfl⟩

/-- `for ( int i = n ; i < m ; i ++ ) @ ( posedge clk ) x = y ;` -/
def exForS : SStm := .for_ (.decl .int (⟨false, c! "i"⟩, exNmE (c! "n")) []) (some (.bin (exNmE (c! "i")) .lt (exNmE (c! "m")))) [.incDec false true (exNm (c! "i"))]
  (.timing (.event (.list (.pos, exNmE (c! "clk")) [])) (exSet (c! "x") (c! "y")))
def exForSText : List STok := [sym .KW_FOR, sym .LPAREN, ⟨.KW_INT, c! "int"⟩, idTok (c! "i"), sym .ASSIGN, idTok (c! "n"), sym .SEMI, idTok (c! "i"), sym .LT, idTok (c! "m"), sym .SEMI,
  idTok (c! "i"), sym .INCR, sym .RPAREN, sym .AT, sym .LPAREN, sym .KW_POSEDGE, idTok (c! "clk"), sym .RPAREN] ++ exSetText (c! "x") (c! "y")

theorem exForS_toks : exForS.Toks exForSText := by
  rw [exForS, SStm.Toks]
  refine ⟨[_], _, rfl, ⟨_, rfl, rfl⟩, [_], _, rfl, ⟨_, rfl, rfl⟩, (exForSText.drop 2).take 4, _, rfl, ?_, [_], _, rfl, ⟨_, rfl, rfl⟩, [_, _, _], _, rfl, ?_,
    [_], _, rfl, ⟨_, rfl, rfl⟩, [_, _], _, rfl, ?_, [_], _, rfl, ⟨_, rfl, rfl⟩, ?_⟩
  · exact ⟨[_], _, rfl, ⟨_, rfl, rfl, rfl⟩, _, [], rfl, ⟨[_], _, rfl, ⟨_, rfl, rfl, by decide⟩, [_], [_], rfl, ⟨_, rfl, rfl⟩, exNmE_toks _⟩, rfl⟩
  · rw [optToks, SExp.Toks]
    exact ⟨⟨by decide, by decide⟩, [_], _, rfl, exNmE_toks _, [_], [_], rfl, ⟨_, rfl, rfl⟩, exNmE_toks _⟩
  · exact ⟨_, [], rfl, ⟨rfl, [_], [_], rfl, exNm_toks _, ⟨_, rfl, rfl⟩⟩, rfl⟩
  · rw [SStm.Toks]
    refine ⟨(exForSText.drop 14).take 5, _, rfl, ?_, exSet_toks _ _, by intro h; cases h⟩
    exact ⟨[_], _, rfl, ⟨_, rfl, rfl⟩, [_], _, rfl, ⟨_, rfl, rfl⟩, [_, _], _, rfl, ⟨[_], [_], rfl, ⟨_, rfl, rfl⟩, exNmE_toks _⟩, [], _, rfl, rfl, ⟨_, rfl, rfl⟩⟩

/-- `l : begin : b  if ( a ) x <= # 3 y ; else <case>  <for>  end : b` -/
def exStmS : SStm := .label ⟨false, c! "l"⟩ (.block (some ⟨false, c! "b"⟩)
  [.iteElse (exNmE (c! "a")) (.nonblocking (exNm (c! "x")) (some (.delay (.num (c! "3")))) (exNmE (c! "y"))) exCaseS, exForS] (some ⟨false, c! "b"⟩))
def exIfText : List STok := [sym .KW_IF, sym .LPAREN, idTok (c! "a"), sym .RPAREN, idTok (c! "x"), sym .LE, sym .HASH, numTok (c! "3"), idTok (c! "y"), sym .SEMI, sym .KW_ELSE] ++ exCaseSText
def exStmSText : List STok := [idTok (c! "l"), sym .COLON, sym .KW_BEGIN, sym .COLON, idTok (c! "b")] ++ exIfText ++ exForSText ++ [sym .KW_END, sym .COLON, idTok (c! "b")]

theorem exStmS_toks : exStmS.Toks exStmSText := by
  have hb : labelToks (some ⟨false, c! "b"⟩) [sym .COLON, idTok (c! "b")] := ⟨[_], [_], rfl, ⟨_, rfl, rfl⟩, ⟨_, rfl, rfl, by decide⟩⟩
  rw [exStmS, SStm.Toks]
  refine ⟨rfl, [_], _, rfl, ⟨_, rfl, rfl, by decide⟩, [_], _, rfl, ⟨_, rfl, rfl⟩, ?_⟩
  rw [SStm.Toks]
  refine ⟨[_], _, rfl, ⟨_, rfl, rfl⟩, [_, _], _, rfl, hb, exIfText ++ (exForSText ++ []), _, rfl, ?_, [_], _, rfl, ⟨_, rfl, rfl⟩, hb⟩
  rw [stmsToks, stmsToks, stmsToks]
  refine ⟨exIfText, _, rfl, ?_, _, [], rfl, exForS_toks, rfl⟩
  rw [SStm.Toks]
  refine ⟨rfl, [_], _, rfl, ⟨_, rfl, rfl⟩, [_, _, _], _, rfl, ⟨[_], _, rfl, ⟨_, rfl, rfl⟩, [_], [_], rfl, exNmE_toks _, ⟨_, rfl, rfl⟩⟩,
    (exIfText.drop 4).take 6, _, rfl, ?_, [_], _, rfl, ⟨_, rfl, rfl⟩, exCaseS_toks⟩
  rw [SStm.Toks]
  exact ⟨rfl, [_], _, rfl, exNm_toks _, [_], _, rfl, ⟨_, rfl, rfl⟩, [_, _], _, rfl, ⟨[_], [_], rfl, ⟨_, rfl, rfl⟩, ⟨_, rfl, rfl, rfl⟩⟩, [_], [_], rfl, exNmE_toks _, ⟨_, rfl, rfl⟩⟩

theorem exNm_ok {s : Str} (h : isKw s = false) : SPrim.Ok (exNm s) := by
  simp only [exNm, SPrim.Ok]
  exact ⟨⟨s, by simp [identStr], h⟩, by simp⟩
theorem exNmE_ok {s : Str} (h : isKw s = false) : SExp.Ok (exNmE s) := by simp only [exNmE, SExp.Ok]; exact exNm_ok h

theorem exCaseS_ok : exCaseS.Ok := by
  simp only [exCaseS, exSet, SStm.Ok, SCase.Ok, casesOk, expsOk]
  exact ⟨exNmE_ok (by decide +kernel), ⟨exNmE_ok (by decide +kernel), ⟨exNmE_ok (by decide +kernel), trivial⟩, exNm_ok (by decide +kernel), exNmE_ok (by decide +kernel)⟩,
    ⟨trivial, trivial⟩, by decide⟩

theorem exForS_ok : exForS.Ok := by
  simp only [exForS, exSet, SStm.Ok, SInit.Ok, optOk, SEvent.Ok]
  refine ⟨⟨⟨⟨_, by simp [identStr]; rfl, by decide +kernel⟩, exNmE_ok (by decide +kernel)⟩, by simp⟩, ?_, ?_, ⟨⟨exNmE_ok (by decide +kernel), by simp⟩, exNm_ok (by decide +kernel),
    exNmE_ok (by decide +kernel)⟩⟩
  · rw [SExp.Ok]; exact ⟨exNmE_ok (by decide +kernel), exNmE_ok (by decide +kernel), by decide⟩
  · simp only [List.mem_singleton, forall_eq, SStep.Ok]; exact exNm_ok (by decide +kernel)

theorem exStmS_ok : exStmS.Ok := by
  simp only [exStmS, SStm.Ok, stmsOk, STiming.Ok, SDelay.Ok, okBlockLabel]
  exact ⟨⟨trivial, by decide +kernel⟩, ⟨_, by simp [identStr]; rfl, by decide +kernel⟩, ⟨exNmE_ok (by decide +kernel),
    ⟨exNm_ok (by decide +kernel), trivial, exNmE_ok (by decide +kernel)⟩, exCaseS_ok, rfl⟩, exForS_ok, trivial⟩

example : ∃ t o, parseStatement exRules exStmRules (fun _ => true) (exStmSText ++ [sym .KW_END]) = some (t, [sym .KW_END]) ∧ visitStmN t = .ok o ∧
    astStm Term.alg STerm.alg Term.tok o = some (exStmS.eval Term.alg STerm.alg) := by
  obtain ⟨t, h1, -, h2⟩ := C124_statement_text_partial Term.alg STerm.alg Term.tok Term.agrees STerm.agrees exRules exStmRules exStmS exStmSText exStmS_toks [sym .KW_END]
    (by rintro _ _ ⟨⟩; decide) (fun _ => true) rfl
  obtain ⟨o, h3, h4⟩ := h2 exStmS_ok
  exact ⟨t, o, h1, h3, h4⟩

example (s : SStm) (h : s.Toks exStmSText) : s.eval Term.alg STerm.alg = exStmS.eval Term.alg STerm.alg :=
  C124_one_reading s exStmS exStmSText h exStmS_toks Term.alg STerm.alg

/-- `if ( a ) if ( b ) x = y ; else <case>` -/
example : ∃ t o, parseStatement exRules exStmRules (fun _ => true) (sym .KW_IF :: sym .LPAREN :: ([idTok (c! "a")] ++ sym .RPAREN :: sym .KW_IF :: sym .LPAREN :: ([idTok (c! "b")] ++
      sym .RPAREN :: (exSetText (c! "x") (c! "y") ++ sym .KW_ELSE :: (exCaseSText ++ []))))) = some (t, []) ∧ visitStmN t = .ok o ∧
    astStm Term.alg STerm.alg Term.tok o = some (STerm.alg.ite ((exNmE (c! "a")).eval Term.alg)
      (STerm.alg.ite ((exNmE (c! "b")).eval Term.alg) ((exSet (c! "x") (c! "y")).eval Term.alg STerm.alg) (some (exCaseS.eval Term.alg STerm.alg))) none) := by
  refine C124_dangling_else_partial Term.alg STerm.alg Term.tok Term.agrees STerm.agrees exRules exStmRules _ _ _ _ _ _ _ _ (exNmE_toks _) (exNmE_toks _) (exSet_toks _ _) exCaseS_toks rfl
    ?_ _ _ _ _ _ _ _ rfl rfl rfl rfl rfl rfl rfl [] (fun _ _ e => by cases e) _ rfl
  simp only [SStm.Ok, exSet]
  exact ⟨exNmE_ok (by decide +kernel), exNmE_ok (by decide +kernel), ⟨exNm_ok (by decide +kernel), exNmE_ok (by decide +kernel)⟩, exCaseS_ok, rfl⟩

end Verif.Sv

namespace Verif.Sv
open Verif.Antlr Verif.Spec Verif.Spec.SvLex

/-- C125 (supported fragment): the text of a procedural statement, with any layout, becomes an AST with the meaning the LRM gives to the text: from
characters to the AST. Missing: as in C124 and C112. -/
theorem C125_source_statement_partial {V S : Type} (A : Spec.Sv.Alg V) (B : Spec.Sv.SAlg V S) (leaf : Expr → V) (hA : Agrees A leaf) (hB : SAgrees A B) (R : Rules)
    (C : StmRules) (v : Version) (src : Str) (ts rest : List (LTy × Str)) (hd : Divided .supported v false src (ts ++ rest)) (s : Spec.SvLrm.SStm) (w r : List STok)
    (hw : List.Forall₂ SeenAs ts w) (hr : List.Forall₂ SeenAs rest r) (hs : s.Toks w) (hok : s.Ok)
    (hg : ∀ y l, r = y :: l → y.ty ≠ .COLON ∧ (s.openIf = true → y.ty ≠ .KW_ELSE)) (follow : List STok → Bool) (hf : follow r = true) :
    ∃ toks t o, lex v.code src = Option.some toks ∧ parseStatement R C follow (toks.map LTok.tok) = Option.some (t, r) ∧
      visitStmN t = .ok o ∧ Spec.Sv.astStm A B leaf o = Option.some (s.eval A B) := by
  obtain ⟨t, h1, -, h2⟩ := C124_statement_text_partial A B leaf hA hB R C s _ hs r hg follow hf
  obtain ⟨o, h3, h4⟩ := h2 hok
  refine ⟨_, t, o, C112_elements_partial v src _ hd, ?_, h3, h4⟩
  rw [List.map_map, List.map_append, seen_all hw, seen_all hr]; exact h1

/-- `if(a)x<= b;//or not` and `else` -/
def exIfElems : List (LTy × Str) := [(.kw (c! "if"), c! "if"), (.sym (c! "("), c! "("), (.C_IDENTIFIER, c! "a"), (.sym (c! ")"), c! ")"), (.C_IDENTIFIER, c! "x"), (.sym (c! "<="), c! "<="),
  (.C_IDENTIFIER, c! "b"), (.sym (c! ";"), c! ";"), (.kw (c! "else"), c! "else"), (.sym (c! ";"), c! ";")]
def exIfSrc : Str := c! "if(a)x<= b;//or not\nelse; end"
def exIfS : Spec.SvLrm.SStm := .iteElse (exNmE (c! "a")) (.nonblocking (exNm (c! "x")) none (exNmE (c! "b"))) .null

theorem exIf_divided : Divided .supported .v2001 false exIfSrc (exIfElems ++ [(.kw (c! "end"), c! "end")]) := by
  refine elemB (w := c! "if") (kwP (by decide +kernel)) (by decide +kernel) ?_
  refine elemB (w := c! "(") (symP (by decide +kernel)) (by decide +kernel) ?_
  refine elemB (w := c! "a") (nameP (by decide +kernel)) (by decide +kernel) ?_
  refine elemB (w := c! ")") (symP (by decide +kernel)) (by decide +kernel) ?_
  refine elemB (w := c! "x") (nameP (by decide +kernel)) (by decide +kernel) ?_
  refine elemB (w := c! "<=") (symP (by decide +kernel)) (by decide +kernel) (blank ?_)
  refine elemB (w := c! "b") (nameP (by decide +kernel)) (by decide +kernel) ?_
  refine elemB (w := c! ";") (symP (by decide +kernel)) (by decide +kernel) ?_
  refine .line (w := c! "or not") (by decide) ?_
  refine elemB (w := c! "else") (kwP (by decide +kernel)) (by decide +kernel) ?_
  refine elemB (w := c! ";") (symP (by decide +kernel)) (by decide +kernel) (blank ?_)
  exact elemB (w := c! "end") (kwP (by decide +kernel)) (by decide +kernel) .nil

example : ∃ toks t o, lex Version.v2001.code exIfSrc = Option.some toks ∧
    parseStatement exRules exStmRules (fun _ => true) (toks.map LTok.tok) = Option.some (t, [⟨.KW_END, c! "end"⟩]) ∧ visitStmN t = .ok o ∧
    Spec.Sv.astStm Term.alg STerm.alg Term.tok o = Option.some (exIfS.eval Term.alg STerm.alg) := by
  refine C125_source_statement_partial Term.alg STerm.alg Term.tok Term.agrees STerm.agrees exRules exStmRules .v2001 _ exIfElems _ exIf_divided exIfS
    [⟨.KW_IF, c! "if"⟩, ⟨.LPAREN, c! "("⟩, idTok (c! "a"), ⟨.RPAREN, c! ")"⟩, idTok (c! "x"), ⟨.LE, c! "<="⟩, idTok (c! "b"), ⟨.SEMI, c! ";"⟩, ⟨.KW_ELSE, c! "else"⟩, ⟨.SEMI, c! ";"⟩] _ ?_
    (.cons ⟨rfl, .inl rfl⟩ .nil) ?_ ?_ (by rintro y s e; cases e; decide) _ rfl
  · exact .cons ⟨rfl, .inl rfl⟩ (.cons ⟨rfl, .inl rfl⟩ (.cons ⟨rfl, rfl⟩ (.cons ⟨rfl, .inl rfl⟩ (.cons ⟨rfl, rfl⟩ (.cons ⟨rfl, .inl rfl⟩ (.cons ⟨rfl, rfl⟩
      (.cons ⟨rfl, .inl rfl⟩ (.cons ⟨rfl, .inl rfl⟩ (.cons ⟨rfl, .inl rfl⟩ .nil)))))))))
  · rw [exIfS, Spec.SvLrm.SStm.Toks]
    refine ⟨rfl, [_], _, rfl, ⟨_, rfl, rfl⟩, [_, _, _], _, rfl, ⟨[_], _, rfl, ⟨_, rfl, rfl⟩, [_], [_], rfl, exNmE_toks _, ⟨_, rfl, rfl⟩⟩, [_, _, _, _], _, rfl,
      ?_, [_], [_], rfl, ⟨_, rfl, rfl⟩, ?_⟩ <;> rw [Spec.SvLrm.SStm.Toks]
    · exact ⟨[_, _, _], [_], rfl, ⟨rfl, [_], _, rfl, exNm_toks _, [_], [_], rfl, ⟨_, rfl, rfl⟩, exNmE_toks _⟩, ⟨_, rfl, rfl⟩⟩
    · exact ⟨_, rfl, rfl⟩
  · simp only [exIfS, Spec.SvLrm.SStm.Ok]
    exact ⟨exNmE_ok (by decide +kernel), ⟨exNm_ok (by decide +kernel), exNmE_ok (by decide +kernel)⟩, trivial, rfl⟩

end Verif.Sv
