import Verif.VhdlUnitRead
import Verif.Props.VhdlSeq
import Verif.Props.VhdlUnit
import Verif.KernelRfl
/-!
# Properties of the way from the tokens and characters of VHDL design files to the AST (C120, C121, C122)
-/
namespace Verif.Vhdl
open P Verif.Antlr Verif.Spec Verif.Spec.Lrm

/-- C120 (what the grammar accepts): a design file written by the rules of the LRM is parsed completely, and the parse tree has the meaning the LRM
gives to the text, whatever the operators, declarations and statements mean. Missing: labelled procedure calls and the places of `end ;` in generate
statements that `LLib.Reg` excludes, see the `C120_violated` theorems. -/
theorem C120_file_parse_partial {V S : Type} (A : Alg V) (B : SAlg V S) (hcall : ∀ f l, A.call f l = A.index f l) (l : List LDesign) (w : List VTok)
    (h : fileToks l w) (hr : ∀ u ∈ l, LLib.Reg u.unit) : ∃ t, parseFile w = some t ∧ evDesignFile A B t = fileEval A B l := by
  obtain ⟨t, m, e⟩ := parse_file hcall h hr
  exact ⟨t, e, (designs_eq m).1 B⟩

/-- C120: a text has only one reading: two design files of the LRM with the same tokens mean the same. -/
theorem C120_one_reading_partial (l l' : List LDesign) (w : List VTok) (h : fileToks l w) (hr : ∀ u ∈ l, LLib.Reg u.unit) (h' : fileToks l' w)
    (hr' : ∀ u ∈ l', LLib.Reg u.unit) {V S : Type} (A : Alg V) (B : SAlg V S) (hcall : ∀ f l, A.call f l = A.index f l) :
    fileEval A B l = fileEval A B l' := by
  obtain ⟨t, e, k⟩ := C120_file_parse_partial A B hcall l w h hr
  obtain ⟨t', e', k'⟩ := C120_file_parse_partial A B hcall l' w h' hr'
  rw [e] at e'
  cases e'
  exact k.symm.trans k'

/-- C121 (supported fragment): the AST of a design file written by the rules of the LRM has the meaning the LRM gives to the text. Missing: what
`LDesign.Ok` excludes, see C87, C88, C89 (and C61, C83, C102), and what `LLib.Reg` excludes, see C120. -/
theorem C121_file_meaning_partial {V S : Type} (A : Alg V) (B : SAlg V S) (leaf : Expr → V) (hA : Agrees A leaf) (hB : SAgrees B leaf)
    (hcall : ∀ f l, A.call f l = A.index f l) (l : List LDesign) (w : List VTok) (h : fileToks l w) (hr : ∀ u ∈ l, LLib.Reg u.unit)
    (hok : ∀ u ∈ l, LDesign.Ok u) : ∃ t os, parseFile w = some t ∧ visitDesignFile false t = .ok os ∧ astTops A B leaf os = some (fileEval A B l) := by
  obtain ⟨t, m, e⟩ := parse_file hcall h hr
  obtain ⟨os, h1, h2⟩ := C89_file_meaning_partial A B leaf hA hB t ((designs_eq m).2 hok)
  exact ⟨t, os, e, h1, by rw [h2, (designs_eq m).1]⟩

/-- C122 (supported fragment): the text of a design file, with any layout, becomes an AST with the meaning the LRM gives to the text: from
characters to the AST. Missing: as in C121 and C105. -/
theorem C122_source_file_partial {V S : Type} (A : Alg V) (B : SAlg V S) (leaf : Expr → V) (hA : Agrees A leaf) (hB : SAgrees B leaf)
    (hcall : ∀ f l, A.call f l = A.index f l) (s : Str) (ts : List (VT × Str)) (hd : Divided .supported none s ts) (l : List LDesign)
    (hl : fileToks l (ts.map tokenOf)) (hr : ∀ u ∈ l, LLib.Reg u.unit) (hok : ∀ u ∈ l, LDesign.Ok u) :
    ∃ toks t os, lex s = some toks ∧ parseFile toks = some t ∧ visitDesignFile false t = .ok os ∧ astTops A B leaf os = some (fileEval A B l) := by
  obtain ⟨t, os, h1, h2, h3⟩ := C121_file_meaning_partial A B leaf hA hB hcall l _ hl hr hok
  exact ⟨_, t, os, C105_elements_partial s _ hd, h1, h2, h3⟩

/-! ## An example -/

/-- A word or delimiter, an identifier, nothing, a name or expression of one token; a part of `n` tokens. -/
local macro "k! " t:term:arg : term => `(⟨[_], _, rfl, ⟨_, rfl, rfl⟩, $t⟩)
local macro "i! " t:term:arg : term => `(⟨[_], _, rfl, ⟨_, rfl, exIdent _⟩, $t⟩)
local macro "e! " t:term:arg : term => `(⟨[], _, rfl, rfl, $t⟩)
local macro "o! " h:term:arg t:term:arg : term => `(⟨[_], _, rfl, $h, $t⟩)
local macro "s! " n:num h:term:arg t:term:arg : term => `(⟨_, _, (List.take_append_drop $n _).symm, $h, $t⟩)
local macro "z!" : term => `(⟨_, rfl, rfl⟩)

def lsub (s : Str) : LSub := ⟨none, lidN s, none⟩

/--
```
library ieee;
use ieee.all;
entity e is port (a, b : in T); end e;
architecture r of e is
  signal s : T := a;
begin
  s <= a;
  g : if c generate
    u : v port map (a);
  end generate g;
  process (s) begin x <= b; end process;
end;
package p is constant k : T := x; end package p;
``` -/
def exDesign : List LDesign := [
  ⟨[.library [c! "ieee"], .use [⟨c! "ieee", [.all]⟩]], .entity (c! "e") [] [.sig false ⟨[c! "a", c! "b"], lsub (c! "T"), none⟩ (some .in_)] [] false (some (c! "e"))⟩,
  ⟨[], .arch (c! "r") (lidN (c! "e")) [.signal ⟨[c! "s"], lsub (c! "T"), some (lidE (c! "a"))⟩] [
      .wave none (.name (lidN (c! "s"))) .none (.elems (lidE (c! "a"), none) []),
      .ifGen (c! "g") (.mk none (lidE (c! "c")) (.plain [.inst (c! "u") (.component false (lidN (c! "v"))) [] [.pos (lidE (c! "a"))]])) [] .none (some (c! "g")),
      .process none (.names (lidN (c! "s")) []) false [] [exSig] none] false none⟩,
  ⟨[], .package (c! "p") [.constant ⟨[c! "k"], lsub (c! "T"), some (lidE (c! "x"))⟩] true (some (c! "p"))⟩]

def exDesignText : List VTok := [kwTok .LIBRARY, idTok (c! "ieee"), sym .SEMI, kwTok .USE, idTok (c! "ieee"), sym .DOT, kwTok .ALL, sym .SEMI] ++
  [kwTok .ENTITY, idTok (c! "e"), kwTok .IS, kwTok .PORT, sym .LPAREN, idTok (c! "a"), sym .COMMA, idTok (c! "b"), sym .COLON, kwTok .IN, idTok (c! "T"),
    sym .RPAREN, sym .SEMI, kwTok .END, idTok (c! "e"), sym .SEMI] ++
  [kwTok .ARCHITECTURE, idTok (c! "r"), kwTok .OF, idTok (c! "e"), kwTok .IS, kwTok .SIGNAL, idTok (c! "s"), sym .COLON, idTok (c! "T"), sym .VARASGN,
    idTok (c! "a"), sym .SEMI, kwTok .BEGIN] ++
  [idTok (c! "s"), sym .CONASGN, idTok (c! "a"), sym .SEMI] ++
  [idTok (c! "g"), sym .COLON, kwTok .IF, idTok (c! "c"), kwTok .GENERATE] ++
  [idTok (c! "u"), sym .COLON, idTok (c! "v"), kwTok .PORT, kwTok .MAP, sym .LPAREN, idTok (c! "a"), sym .RPAREN, sym .SEMI] ++
  [kwTok .END, kwTok .GENERATE, idTok (c! "g"), sym .SEMI] ++
  [kwTok .PROCESS, sym .LPAREN, idTok (c! "s"), sym .RPAREN, kwTok .BEGIN] ++ exSigText ++ [kwTok .END, kwTok .PROCESS, sym .SEMI] ++
  [kwTok .END, sym .SEMI] ++
  [kwTok .PACKAGE, idTok (c! "p"), kwTok .IS, kwTok .CONSTANT, idTok (c! "k"), sym .COLON, idTok (c! "T"), sym .VARASGN, idTok (c! "x"), sym .SEMI,
    kwTok .END, kwTok .PACKAGE, idTok (c! "p"), sym .SEMI]

theorem lsub_toks (s : Str) : (lsub s).Toks [idTok s] := ⟨[], _, rfl, rfl, [_], [], rfl, lidN_toks s, rfl⟩

theorem exDesign_toks : fileToks exDesign exDesignText := by
  refine ⟨exDesignText.take 24, exDesignText.drop 24, rfl, ⟨exDesignText.take 8, (exDesignText.drop 8).take 16, rfl, ?_, ?_⟩,
    (exDesignText.drop 24).take 49, exDesignText.drop 73, rfl, ⟨[], _, rfl, rfl, ?_⟩, exDesignText.drop 73, [], rfl, ⟨[], _, rfl, rfl, ?_⟩, rfl⟩
  · exact s! 3 (k! ⟨[_], _, rfl, ⟨[_], [], rfl, ⟨_, rfl, exIdent _⟩, rfl⟩, z!⟩)
      ⟨_, [], (List.append_nil _).symm, k! (s! 3 ⟨_, [], (List.append_nil _).symm, i! ⟨_, [], rfl, k! ⟨kwTok .ALL, rfl, show (kwTok .ALL).ty = VT.kw .ALL from rfl⟩, rfl⟩, rfl⟩ z!), rfl⟩
  · exact k! (i! (k! (e! (s! 10 (k! (k! (s! 6 ⟨_, [], (List.append_nil _).symm, e! (s! 3 (i! ⟨_, [], (List.append_nil _).symm, k! ⟨_, rfl, exIdent _⟩, rfl⟩)
      (k! (k! (⟨[_], [], rfl, lsub_toks _, rfl⟩)))), rfl⟩ (k! z!)))) (e! (k! (e! (i! z!))))))))
  · refine k! (i! (k! (o! ⟨rfl, lidN_toks _⟩ (k! (s! 7 ?_ (k! (s! 34 ?_ (k! (e! (e! z!))))))))))
    · simp only [declsToks, LDecl.Toks]
      exact ⟨_, [], (List.append_nil _).symm, ⟨by decide, k! (s! 5 (o! ⟨[_], [], rfl, ⟨_, rfl, exIdent _⟩, rfl⟩ (k! (e! (o! (lsub_toks _) (k! (lidE_toks _)))))) z!)⟩, rfl⟩
    · simp only [concsToks, LConc.Toks, LGen.Toks, LBody.Toks, LGenElse.Toks, gensToks, LUnit.Toks, mapToks, LArg.Toks, argsToks, seqsToks, declsToks, LSens.Toks, Flag, Opt', labelToks]
      refine s! 4 (e! ?_) (s! 18 (s! 2 (i! z!) (k! (s! 11 (e! (o! (lidE_toks _) (k! ?_))) (e! (e! ?_)))))
        ⟨_, [], (List.append_nil _).symm, e! (k! (s! 3 (k! (o! ⟨[_], [], rfl, lidN_toks _, rfl⟩ z!)) (e! (e! (k! (s! 4 ⟨_, [], (List.append_nil _).symm, exSig_toks, rfl⟩ ?_)))))), rfl⟩)
      · simp only [LAssign.Toks, sigToks, LTarget.Toks, LDelay.Toks, LWave.Toks, elemToks, Opt', Rep]
        exact o! (lidN_toks _) (k! ⟨[_], [_], rfl, ⟨[], [_], rfl, rfl, [_], [], rfl, ⟨[_], [], rfl, lidE_toks _, rfl⟩, rfl⟩, z!⟩)
      · exact ⟨_, [], (List.append_nil _).symm, s! 2 (i! z!) (o! ⟨[], _, rfl, rfl, rfl, lidN_toks _⟩ (e! (s! 5 (k! (k! (k! (o! (lidE_toks _) (e! z!))))) z!))), rfl⟩
      · exact k! (k! (e! (i! z!)))
      · exact k! (k! (e! (e! z!)))
  · simp only [LLib.Toks, LDecl.Toks, declsToks]
    exact k! (i! (k! (s! 7 ⟨_, [], (List.append_nil _).symm, k! (s! 5 (o! ⟨[_], [], rfl, ⟨_, rfl, exIdent _⟩, rfl⟩ (k! (e! (o! (lsub_toks _) (k! (lidE_toks _)))))) z!), rfl⟩
      (k! (k! (i! z!))))))

theorem lidN_ok (s : Str) : LName.Ok (lidN s) := by simp only [lidN, LName.Ok]; exact ⟨.id none s, rfl⟩

theorem lsub_ok (s : Str) : LSub.Ok (lsub s) := ⟨fun _ h => (nomatch h), lidN_ok s, fun _ h => (nomatch h)⟩

theorem lvars_ok (n : List Str) (s : Str) (o : Option Str) : LVars.Ok ⟨n, lsub s, o.map lidE⟩ :=
  ⟨lsub_ok s, fun e h => by cases o with
    | none => nomatch h
    | some a => cases h; exact lidE_ok _⟩

theorem exDesign_ok : ∀ u ∈ exDesign, LDesign.Ok u := by
  intro u hu
  simp only [exDesign, List.mem_cons, List.not_mem_nil, or_false] at hu
  rcases hu with rfl | rfl | rfl
  · refine ⟨fun c hc => ?_, fun _ h => (nomatch h), fun i hi => ?_, trivial⟩
    · simp only [List.mem_cons, List.not_mem_nil, or_false] at hc
      rcases hc with rfl | rfl
      · trivial
      · intro p hp x hx
        cases List.mem_singleton.1 hp
        cases List.mem_singleton.1 hx
        trivial
    · cases List.mem_singleton.1 hi
      exact ⟨lvars_ok _ _ none, .inl rfl⟩
  · refine ⟨fun _ h => (nomatch h), ?_⟩
    simp only [LLib.Ok, declsOk, LDecl.Ok, concsOk, LConc.Ok, LGen.Ok, gensOk, LGenElse.Ok, LBody.Ok, LUnit.Ok, argsOk, LArg.Ok, LAssign.Ok, LTarget.Ok, LWave.Ok, LSens.Ok, seqsOk]
    exact ⟨lidN_ok _, ⟨lvars_ok _ _ (some _), trivial⟩, ⟨lidN_ok _, lidE_ok _⟩, ⟨⟨trivial, lidE_ok _, ⟨lidN_ok _, trivial, lidE_ok _, trivial⟩, trivial⟩, trivial, trivial, .inr trivial⟩,
      ⟨fun x hx => by cases List.mem_singleton.1 hx; exact lidN_ok _, trivial, exSig_ok, trivial⟩, trivial⟩
  · refine ⟨fun _ h => (nomatch h), ?_⟩
    simp only [LLib.Ok, declsOk, LDecl.Ok]
    exact ⟨lvars_ok _ _ (some _), trivial⟩

theorem exDesign_reg : ∀ u ∈ exDesign, LLib.Reg u.unit := by
  intro u hu
  simp only [exDesign, List.mem_cons, List.not_mem_nil, or_false] at hu
  rcases hu with rfl | rfl | rfl
  · trivial
  · simp only [LLib.Reg, concsReg, LConc.Reg, LGen.Reg, gensReg, LGenElse.Reg, LBody.Reg]; trivial
  · trivial

example : ∃ t, parseFile exDesignText = some t ∧ evDesignFile Term.alg1 STerm.alg t = fileEval Term.alg1 STerm.alg exDesign :=
  C120_file_parse_partial _ _ (fun _ _ => rfl) _ _ exDesign_toks exDesign_reg

example (l : List LDesign) (h : fileToks l exDesignText) (hr : ∀ u ∈ l, LLib.Reg u.unit) : fileEval Term.alg1 STerm.alg l = fileEval Term.alg1 STerm.alg exDesign :=
  C120_one_reading_partial _ _ _ h hr exDesign_toks exDesign_reg _ _ (fun _ _ => rfl)

example : ∃ t os, parseFile exDesignText = some t ∧ visitDesignFile false t = .ok os ∧
    astTops Term.alg1 STerm.alg Term.tok os = some (fileEval Term.alg1 STerm.alg exDesign) :=
  C121_file_meaning_partial _ _ _ Term.agrees1 STerm.agrees (fun _ _ => rfl) _ _ exDesign_toks exDesign_reg exDesign_ok

/-- `entity e is end;` in capital letters. -/
def exFileSource : List (VT × Str) := [(.kw .ENTITY, c! "ENTITY"), (.BASIC_IDENTIFIER, c! "e"), (.kw .IS, c! "IS"), (.kw .END, c! "END"), (.SEMI, c! ";")]

theorem exFile_divided : Divided .supported none (c! "ENTITY e IS END;") exFileSource := by
  refine .elem (w := c! "ENTITY") (by simp only [Element]; decide) ⟨notHead (by decide), fun _ => notHead (by decide)⟩ (no_tick (by decide) (by decide))
    (lim (by decide) (by decide) (by decide) (by decide)) (.sep (by decide) (show ' ' ∈ _ by decide) ?_)
  refine divided_id (by decide) (by decide +kernel) (by decide) (notHead (by decide)) (notHead (by decide)) (.sep (by decide) (show ' ' ∈ _ by decide) ?_)
  refine .elem (w := c! "IS") (by simp only [Element]; decide) ⟨notHead (by decide), fun _ => notHead (by decide)⟩ (no_tick (by decide) (by decide))
    (lim (by decide) (by decide) (by decide) (by decide)) (.sep (by decide) (show ' ' ∈ _ by decide) ?_)
  refine .elem (w := c! "END") (by simp only [Element]; decide) ⟨notHead (by decide), fun _ => notHead (by decide)⟩ (no_tick (by decide) (by decide))
    (lim (by decide) (by decide) (by decide) (by decide)) ?_
  exact .elem (w := c! ";") (by simp only [Element]; decide) ⟨by decide, by decide, by decide⟩ (no_tick (by decide) (by decide))
    (lim (by decide) (by decide) (by decide) (by decide)) .nil

def exEntityFile : List LDesign := [⟨[], .entity (c! "e") [] [] [] false none⟩]

theorem exEntity_toks : fileToks exEntityFile (exFileSource.map tokenOf) := by
  have hi : ∀ {c : Char}, bytes [c] = [c] → NameLit.Tok (.ident [c]) (tokenOf (.BASIC_IDENTIFIER, [c])) := fun h => ⟨.inl rfl, h⟩
  exact ⟨_, [], (List.append_nil _).symm, e! (k! ⟨[_], _, rfl, ⟨_, rfl, hi rfl⟩, k! (e! (e! (e! (k! (e! (e! z!))))))⟩), rfl⟩

theorem exEntity_reg : ∀ u ∈ exEntityFile, LLib.Reg u.unit := by
  intro u hu; cases List.mem_singleton.1 hu; trivial

theorem exEntity_ok : ∀ u ∈ exEntityFile, LDesign.Ok u := by
  intro u hu
  cases List.mem_singleton.1 hu
  exact ⟨fun _ h => (nomatch h), fun _ h => (nomatch h), fun _ h => (nomatch h), trivial⟩

example : ∃ toks t os, lex (c! "ENTITY e IS END;") = some toks ∧ parseFile toks = some t ∧ visitDesignFile false t = .ok os ∧
    astTops Term.alg1 STerm.alg Term.tok os = some (fileEval Term.alg1 STerm.alg exEntityFile) :=
  C122_source_file_partial _ _ _ Term.agrees1 STerm.agrees (fun _ _ => rfl) _ exFileSource exFile_divided exEntityFile exEntity_toks exEntity_reg exEntity_ok

/-! ## Where the grammar departs from the LRM -/

/-- `architecture r of e is begin … end;` -/
def archOf (ss : List LConc) : List LDesign := [⟨[], .arch (c! "r") (lidN (c! "e")) [] ss false none⟩]

def archText (w : List VTok) : List VTok :=
  [kwTok .ARCHITECTURE, idTok (c! "r"), kwTok .OF, idTok (c! "e"), kwTok .IS, kwTok .BEGIN] ++ (w ++ [kwTok .END, sym .SEMI])

theorem archText_toks {ss : List LConc} {w : List VTok} (h : concsToks ss w) : fileToks (archOf ss) (archText w) := by
  refine ⟨_, [], (List.append_nil _).symm, ⟨[], _, rfl, rfl, ?_⟩, rfl⟩
  simp only [LLib.Toks, declsToks]
  exact k! (i! (k! (o! ⟨rfl, lidN_toks _⟩ (k! (e! (k! ⟨w, _, rfl, h, k! (e! (e! z!))⟩))))))

/-- `l : p(x);` -/
def exCall : LConc := .call (some (c! "l")) (lidN (c! "p")) [.pos (lidE (c! "x"))]
def exCallText : List VTok := [idTok (c! "l"), sym .COLON, idTok (c! "p"), sym .LPAREN, idTok (c! "x"), sym .RPAREN, sym .SEMI]

theorem exCall_toks : concsToks [exCall] exCallText := by
  simp only [exCall, concsToks, LConc.Toks]
  exact ⟨_, [], (List.append_nil _).symm, s! 2 (i! z!) (s! 4 ⟨rfl, o! (lidN_toks _) (k! (o! (lidE_toks _) (e! z!)))⟩ z!), rfl⟩

/-- The tree of an architecture body with one instantiation. -/
def instTree (u : InstUnit) : List DesignUnit := [⟨[], .arch (c! "r") (.lit (.ident (c! "e"))) [] [.inst (c! "l") u none none]⟩]

/-- `p(x)` -/
def exPx : Name := .assoc (.lit (.ident (c! "p"))) [.pos (.desig (.expr (idE (c! "x"))))]

/-- C120 is violated by procedure calls with a label: `l : p(x);` is read as the instantiation of a component named `p(x)`. -/
theorem C120_violated_labelled_call : fileToks (archOf [exCall]) (archText exCallText) ∧
    parseFile (archText exCallText) = some (instTree (.component false exPx)) ∧
    evDesignFile Term.alg1 STerm.alg (instTree (.component false exPx)) ≠ fileEval Term.alg1 STerm.alg (archOf [exCall]) := by
  refine ⟨archText_toks exCall_toks, by kernel_rfl, ?_⟩
  simp [archOf, fileEval, LDesign.eval, LLib.eval, concsEval, LConc.eval, exCall, evDesignFile, instTree, evLibUnit, evConcs, evConc, declsEval, evDecls, STerm.alg, labelled]

/-- `l : entity p(x);` -/
def exEntityText : List VTok := [idTok (c! "l"), sym .COLON, kwTok .ENTITY, idTok (c! "p"), sym .LPAREN, idTok (c! "x"), sym .RPAREN, sym .SEMI]

/-- C120 is violated by the architecture of an instantiated entity: in `l : entity p(x);` the architecture `x` (LRM 11.7.1) is read as a part of the
name of the entity, as if the name were `p(x)`. -/
theorem C120_violated_architecture : parseFile (archText exEntityText) = some (instTree (.entity exPx none)) := by kernel_rfl

/-- `l : if c generate begin end; end generate;` -/
def exGenEnd : LConc := .ifGen (c! "l") (.mk none (lidE (c! "c")) (.full [] [] (some none))) [] .none none
def exGenEndText : List VTok := [idTok (c! "l"), sym .COLON, kwTok .IF, idTok (c! "c"), kwTok .GENERATE, kwTok .BEGIN, kwTok .END, sym .SEMI,
  kwTok .END, kwTok .GENERATE, sym .SEMI]

/-- C120 is violated by generate statements whose body has its own `end ;` (LRM 11.9): `l : if c generate begin end; end generate;` is refused. -/
theorem C120_violated_generate_end : fileToks (archOf [exGenEnd]) (archText exGenEndText) ∧ parseFile (archText exGenEndText) = none := by
  refine ⟨archText_toks ?_, by kernel_rfl⟩
  simp only [exGenEnd, concsToks, LConc.Toks, LGen.Toks, LBody.Toks, gensToks, LGenElse.Toks, declsToks]
  exact ⟨_, [], (List.append_nil _).symm, s! 2 (i! z!) (k! (s! 5 (e! (o! (lidE_toks _) (k! (e! (k! (e! (k! (e! z!)))))))) (e! (e! (k! (k! (e! (e! z!)))))))), rfl⟩

/-- `l : case c generate when a => begin end generate;` -/
def exAlt : LConc := .caseGen (c! "l") (lidE (c! "c")) (.mk none ⟨.expr (.one (exNm (c! "a"))), []⟩ (.full [] [] none)) [] none
def exAltText : List VTok := [idTok (c! "l"), sym .COLON, kwTok .CASE, idTok (c! "c"), kwTok .GENERATE, kwTok .WHEN, idTok (c! "a"), sym .ARROW, kwTok .BEGIN,
  kwTok .END, kwTok .GENERATE, sym .SEMI]

/-- C120 is violated by alternatives of a `case generate` with `begin` but without `end ;` (LRM 11.9, where `end ;` is optional): they are refused. -/
theorem C120_violated_alternative_begin : fileToks (archOf [exAlt]) (archText exAltText) ∧ parseFile (archText exAltText) = none := by
  refine ⟨archText_toks ?_, by kernel_rfl⟩
  simp only [exAlt, concsToks, LConc.Toks, LGenAlt.Toks, LBody.Toks, genAltsToks, declsToks]
  exact ⟨_, [], (List.append_nil _).symm, s! 2 (i! z!) (k! (o! (lidE_toks _) (k! (s! 4 (k! (e! (o! ⟨[_], [], rfl, exNm_toks _, rfl⟩ (k! (e! (k! (e! rfl))))))) (e! (k! (k! (e! (e! z!))))))))), rfl⟩

end Verif.Vhdl
