import Verif.SvModGood
import Verif.Props.SvItemText
/-!
# Properties of the way from the tokens and characters of SystemVerilog source texts to the AST (C128, C129)
-/
namespace Verif.Sv
open P Verif.Spec.SvLrm Verif.Spec.Sv

/-- C128 (supported fragment): a source text of modules written by the rules of the LRM is parsed completely and as these modules, and the objects of the
AST have the meaning the LRM gives to the text: name, parameters of header and body, ports with their directions and types, items, in order, whatever the operators, statements and
items mean. Missing: the forms of modules which `SMod` does not have (parameters without keyword, without value or of types other than vectors, integers and reals, ports in the old style but `input`, `output` and `inout`, and parts of them in the header, the types of ports but nets, `bit`, `logic`, `reg`, the integer and real types and
ranges, dimensions and values of ports, `(.*)`, modules in modules, attributes, imports, lifetimes), the items missing in C126,
and descriptions which are no modules; for the AST also what `SMod.Ok` excludes. -/
theorem C128_source_text_partial {V S W : Type} (A : Alg V) (B : SAlg V S) (N : MAlg V S W) (leaf : Expr → V) (hA : Agrees A leaf) (hB : SAgrees A B) (hN : MAgrees N)
    (R : Rules) (C : StmRules) (G : ItemRules) (D : ModRules) (l : List SMod) (w : List STok) (h : modsToks l w) :
    ∃ ts : List Mod, parseSource R C G D w = some (ts.map .module_) ∧ ts.map (evMod A B N) = l.map (SMod.eval A B N) ∧
      ((∀ m ∈ l, m.Ok) → ∃ os, visitSource (ts.map .module_) = .ok os ∧ astItems A B N leaf os = some (l.map (SMod.eval A B N))) := by
  obtain ⟨ts, ht, f⟩ := source_first (A := A) (Bs := B) (N := N) (B := R) (C := C) (G := G) (D := D) (n := w.length) h (Nat.le_refl _)
  have e : ts.map (evMod A B N) = l.map (SMod.eval A B N) := all2_map (fun a b h => h.ev) ht
  refine ⟨ts, ?_, e, fun hok => ?_⟩
  · rw [parseSource, f.find (q := fun r => r.isEmpty) rfl]; rfl
  · obtain ⟨os, h1, h2⟩ := C74_source_meaning_partial A B N leaf hA hB hN ts (all2_all (p := okMod) (q := SMod.Ok) (fun a b h => h.ok) ht hok)
    exact ⟨os, h1, by rw [h2, e]⟩

/-- Without the rules which are not modelled. -/
def exModRules : ModRules where
  timeunits := P.fail
  other := P.fail
  time_no := ⟨rfl, fun _ _ _ => rfl⟩
  other_no := rfl

/-- C128: a text has only one reading: two source texts of the LRM with the same tokens mean the same. -/
theorem C128_one_reading (l l' : List SMod) (w : List STok) (h : modsToks l w) (h' : modsToks l' w) {V S W : Type} (A : Alg V) (B : SAlg V S) (N : MAlg V S W) :
    l.map (SMod.eval A B N) = l'.map (SMod.eval A B N) := by
  obtain ⟨ts, ht, f⟩ := source_first (A := A) (Bs := B) (N := N) (B := exRules) (C := exStmRules) (G := exItemRules) (D := exModRules) (n := w.length) h (Nat.le_refl _)
  obtain ⟨ts', ht', f'⟩ := source_first (A := A) (Bs := B) (N := N) (B := exRules) (C := exStmRules) (G := exItemRules) (D := exModRules) (n := w.length) h' (Nat.le_refl _)
  have e1 := f.unique f'
  have e2 : ts = ts' := List.map_injective_iff.2 (fun a b h => by cases h; rfl) e1
  subst e2
  rw [← all2_map (fun a b h => h.ev) ht, all2_map (fun a b h => h.ev) ht']

/-! ## An example -/

/-- `reg [ w : z ] x , y = c ;` -/
def exRegs : SItem := .vars .reg (some (exNmE (c! "w"), exNmE (c! "z"))) (⟨false, c! "x"⟩, none) [(⟨false, c! "y"⟩, some (exNmE (c! "c")))]
/-- `tri [ w : z ] t , u = c ;` -/
def exNets : SItem := .nets .tri (some (exNmE (c! "w"), exNmE (c! "z"))) (⟨false, c! "t"⟩, none) [(⟨false, c! "u"⟩, some (exNmE (c! "c")))]
/-- `localparam h = c , i = z ;` -/
def exLoc : SItem := .local_ (.num .int) (⟨false, c! "h"⟩, exNmE (c! "c")) [(⟨false, c! "i"⟩, exNmE (c! "z"))]
/-- `parameter a = c , b = z` -/
def exPar : SPar := ⟨false, .plain, (⟨false, c! "a"⟩, exNmE (c! "c")), [(⟨false, c! "b"⟩, exNmE (c! "z"))]⟩
/-- `localparam reg [ w : z ] l = c` -/
def exLocal : SPar := ⟨true, .vec .reg (some (exNmE (c! "w"), exNmE (c! "z"))), (⟨false, c! "l"⟩, exNmE (c! "c")), []⟩
/-- `module top # ( parameter a = c , b = z , localparam reg [ w : z ] l = c ) ( input wire clk , output logic [ w : z ] q , r , inout [ w : z ] d , ref reg s ) ; <variables> <nets> <local parameters> <loop> generate <if> endgenerate genvar k ; endmodule : top` -/
def exTop : SMod where
  name := ⟨false, c! "top"⟩
  params := some (exPar, [exLocal])
  ports := .list ⟨some (.input, .net .wire none), ⟨false, c! "clk"⟩⟩ [⟨some (.output, .vecRange .logic (exNmE (c! "w")) (exNmE (c! "z"))), ⟨false, c! "q"⟩⟩, ⟨none, ⟨false, c! "r"⟩⟩,
    ⟨some (.inout, .range (exNmE (c! "w")) (exNmE (c! "z"))), ⟨false, c! "d"⟩⟩, ⟨some (.ref, .vec .reg), ⟨false, c! "s"⟩⟩]
  items := [.item exRegs, .item exNets, .item exLoc, .item exLoop, .item (.region [exGIf]), .item (.genvar ⟨false, c! "k"⟩ [])]
  label := some ⟨false, c! "top"⟩
/-- `module e ( y , a ) ; parameter reg [ w : z ] l = c ; input a ; output logic [ w : z ] y ; endmodule` -/
def exInts : SItem := .atoms .integer (⟨false, c! "i"⟩, some (exNmE (c! "c"))) []
def exOldMod : SMod := ⟨⟨false, c! "e"⟩, none, .names ⟨false, c! "y"⟩ [⟨false, c! "a"⟩], [.par exLocal.ty exLocal.first [], .ports .input (.num .real) ⟨false, c! "a"⟩ [],
  .ports .output (.vecRange .logic (exNmE (c! "w")) (exNmE (c! "z"))) ⟨false, c! "y"⟩ [], .item exInts], none⟩

def exRangeText : List STok := [sym .LSQUARE_BR, idTok (c! "w"), sym .COLON, idTok (c! "z"), sym .RSQUARE_BR]
def exPortsText : List STok := [sym .KW_INPUT, ⟨.KW_WIRE, c! "wire"⟩, idTok (c! "clk")] ++ (sym .COMMA :: ((sym .KW_OUTPUT :: ((⟨.KW_LOGIC, c! "logic"⟩ :: exRangeText) ++ [idTok (c! "q")])) ++
  (sym .COMMA :: ([idTok (c! "r")] ++ (sym .COMMA :: ((sym .KW_INOUT :: (exRangeText ++ [idTok (c! "d")])) ++ (sym .COMMA :: ([sym .KW_REF, ⟨.KW_REG, c! "reg"⟩, idTok (c! "s")] ++ [])))))))) 
def exRegsText : List STok := ⟨.KW_REG, c! "reg"⟩ :: (exRangeText ++ ([idTok (c! "x")] ++ ([sym .COMMA, idTok (c! "y"), sym .ASSIGN, idTok (c! "c")] ++ [sym .SEMI])))
theorem exRegs_toks : exRegs.Toks exRegsText := by
  rw [exRegs, SItem.Toks]
  exact ⟨[_], _, rfl, ⟨_, rfl, rfl, rfl⟩, exRangeText, _, rfl, ⟨[_], _, rfl, ⟨_, rfl, rfl⟩, [_], _, rfl, exNmE_toks _, [_], _, rfl, ⟨_, rfl, rfl⟩, [_], [_], rfl, exNmE_toks _, ⟨_, rfl, rfl⟩⟩,
    [_], _, rfl, ⟨_, rfl, rfl, by decide⟩, [_, _, _, _], [_], rfl, ⟨[_], _, rfl, ⟨_, rfl, rfl⟩, [_, _, _], [], rfl, ⟨[_], _, rfl, ⟨_, rfl, rfl, by decide⟩, [_], [_], rfl, ⟨_, rfl, rfl⟩, exNmE_toks _⟩, rfl⟩,
    ⟨_, rfl, rfl⟩⟩
def exNetsText : List STok := ⟨.KW_TRI, c! "tri"⟩ :: (exRangeText ++ ([idTok (c! "t")] ++ ([sym .COMMA, idTok (c! "u"), sym .ASSIGN, idTok (c! "c")] ++ [sym .SEMI])))
theorem exNets_toks : exNets.Toks exNetsText := by
  rw [exNets, SItem.Toks]
  exact ⟨[_], _, rfl, ⟨_, rfl, rfl, rfl⟩, exRangeText, _, rfl, ⟨[_], _, rfl, ⟨_, rfl, rfl⟩, [_], _, rfl, exNmE_toks _, [_], _, rfl, ⟨_, rfl, rfl⟩, [_], [_], rfl, exNmE_toks _, ⟨_, rfl, rfl⟩⟩,
    [_], _, rfl, ⟨_, rfl, rfl, by decide⟩, [_, _, _, _], [_], rfl, ⟨[_], _, rfl, ⟨_, rfl, rfl⟩, [_, _, _], [], rfl, ⟨[_], _, rfl, ⟨_, rfl, rfl, by decide⟩, [_], [_], rfl, ⟨_, rfl, rfl⟩, exNmE_toks _⟩, rfl⟩,
    ⟨_, rfl, rfl⟩⟩
def exLocText : List STok := [sym .KW_LOCALPARAM, ⟨.KW_INT, c! "int"⟩, idTok (c! "h"), sym .ASSIGN, idTok (c! "c"), sym .COMMA, idTok (c! "i"), sym .ASSIGN, idTok (c! "z"), sym .SEMI]
theorem exLoc_toks : exLoc.Toks exLocText := by
  rw [exLoc, SItem.Toks]
  exact ⟨[_], _, rfl, ⟨_, rfl, rfl⟩, [_], _, rfl, ⟨_, rfl, rfl, rfl⟩, [_, _, _], _, rfl, ⟨[_], _, rfl, ⟨_, rfl, rfl, by decide⟩, [_], [_], rfl, ⟨_, rfl, rfl⟩, exNmE_toks _⟩,
    [_, _, _, _], [_], rfl, ⟨[_], _, rfl, ⟨_, rfl, rfl⟩, [_, _, _], [], rfl, ⟨[_], _, rfl, ⟨_, rfl, rfl, by decide⟩, [_], [_], rfl, ⟨_, rfl, rfl⟩, exNmE_toks _⟩, rfl⟩, ⟨_, rfl, rfl⟩⟩
def exBodyText : List STok := exRegsText ++ (exNetsText ++ (exLocText ++ (exLoopText ++ ((sym .KW_GENERATE :: (exGIfText ++ [] ++ [sym .KW_ENDGENERATE])) ++ ([sym .KW_GENVAR, idTok (c! "k"), sym .SEMI] ++ [])))))
def exParText : List STok := [sym .KW_PARAMETER, idTok (c! "a"), sym .ASSIGN, idTok (c! "c"), sym .COMMA, idTok (c! "b"), sym .ASSIGN, idTok (c! "z")]
def exLocalText : List STok := sym .KW_LOCALPARAM :: ((⟨.KW_REG, c! "reg"⟩ :: exRangeText) ++ ([idTok (c! "l"), sym .ASSIGN, idTok (c! "c")] ++ []))
def exParsText : List STok := sym .HASH :: sym .LPAREN :: ((exParText ++ (sym .COMMA :: (exLocalText ++ []))) ++ [sym .RPAREN])
def exTopText : List STok := sym .KW_MODULE :: idTok (c! "top") :: (exParsText ++ ((sym .LPAREN :: (exPortsText ++ [sym .RPAREN])) ++ (sym .SEMI :: (exBodyText ++ [sym .KW_ENDMODULE, sym .COLON, idTok (c! "top")]))))
def exOldModBody : List STok := (sym .KW_PARAMETER :: ((⟨.KW_REG, c! "reg"⟩ :: exRangeText) ++ ([idTok (c! "l"), sym .ASSIGN, idTok (c! "c")] ++ [sym .SEMI]))) ++
  ([sym .KW_INPUT, ⟨.KW_REAL, c! "real"⟩, idTok (c! "a"), sym .SEMI] ++ ((sym .KW_OUTPUT :: ((⟨.KW_LOGIC, c! "logic"⟩ :: exRangeText) ++ [idTok (c! "y"), sym .SEMI])) ++
  ([⟨.KW_INTEGER, c! "integer"⟩, idTok (c! "i"), sym .ASSIGN, idTok (c! "c"), sym .SEMI] ++ [])))
def exOldModText : List STok := [sym .KW_MODULE, idTok (c! "e"), sym .LPAREN, idTok (c! "y"), sym .COMMA, idTok (c! "a"), sym .RPAREN, sym .SEMI] ++ (exOldModBody ++ [sym .KW_ENDMODULE])

theorem exRange_toks : rangeToks (exNmE (c! "w")) (exNmE (c! "z")) exRangeText :=
  ⟨[_], _, rfl, ⟨_, rfl, rfl⟩, [_], _, rfl, exNmE_toks _, [_], _, rfl, ⟨_, rfl, rfl⟩, [_], [_], rfl, exNmE_toks _, ⟨_, rfl, rfl⟩⟩

theorem exPars_toks : parsToks exTop.params exParsText := by
  refine ⟨[_], _, rfl, ⟨_, rfl, rfl⟩, [_], _, rfl, ⟨_, rfl, rfl⟩, _, [_], rfl, ⟨exParText, _, rfl, ?_, [_], _, rfl, ⟨_, rfl, rfl⟩, exLocalText, [], rfl, ?_, rfl⟩, ⟨_, rfl, rfl⟩⟩
  · exact ⟨[_], _, rfl, ⟨_, rfl, rfl⟩, [], _, rfl, rfl, [_, _, _], _, rfl, ⟨[_], _, rfl, ⟨_, rfl, rfl, by decide⟩, [_], [_], rfl, ⟨_, rfl, rfl⟩, exNmE_toks _⟩,
      [_], _, rfl, ⟨_, rfl, rfl⟩, [_, _, _], [], rfl, ⟨[_], _, rfl, ⟨_, rfl, rfl, by decide⟩, [_], [_], rfl, ⟨_, rfl, rfl⟩, exNmE_toks _⟩, rfl⟩
  · exact ⟨[_], _, rfl, ⟨_, rfl, rfl⟩, _, _, rfl, ⟨[_], _, rfl, ⟨_, rfl, rfl, rfl⟩, exRange_toks⟩, [_, _, _], [], rfl,
      ⟨[_], _, rfl, ⟨_, rfl, rfl, by decide⟩, [_], [_], rfl, ⟨_, rfl, rfl⟩, exNmE_toks _⟩, rfl⟩

theorem exTop_toks : exTop.Toks exTopText := by
  refine ⟨[_], _, rfl, ⟨_, rfl, rfl⟩, [_], _, rfl, ⟨_, rfl, rfl, by decide⟩, exParsText, _, rfl, exPars_toks, sym .LPAREN :: (exPortsText ++ [sym .RPAREN]), _, rfl, ?_, [_], _, rfl, ⟨_, rfl, rfl⟩, exBodyText, _, rfl, ?_,
    [_], _, rfl, ⟨_, rfl, rfl⟩, [_], [_], rfl, ⟨_, rfl, rfl⟩, ⟨_, rfl, rfl, by decide⟩⟩
  · refine ⟨rfl, [_], _, rfl, ⟨_, rfl, rfl⟩, exPortsText, [_], rfl, ?_, ⟨_, rfl, rfl⟩⟩
    refine ⟨[_, _, _], _, rfl, ⟨[_], _, rfl, ⟨_, rfl, rfl⟩, [_], [_], rfl, ⟨[_], [], rfl, ⟨_, rfl, rfl, rfl⟩, rfl⟩, ⟨_, rfl, rfl, by decide⟩⟩, [_], _, rfl, ⟨_, rfl, rfl⟩,
      sym .KW_OUTPUT :: ((⟨.KW_LOGIC, c! "logic"⟩ :: exRangeText) ++ [idTok (c! "q")]), _, rfl, ?_, [_], _, rfl, ⟨_, rfl, rfl⟩, [_], _, rfl, ⟨_, rfl, rfl, by decide⟩, [_], _, rfl, ⟨_, rfl, rfl⟩,
      sym .KW_INOUT :: (exRangeText ++ [idTok (c! "d")]), _, rfl, ?_, [_], _, rfl, ⟨_, rfl, rfl⟩, [_, _, _], [], rfl, ?_, rfl⟩
    · exact ⟨[_], _, rfl, ⟨_, rfl, rfl⟩, _, [_], rfl, ⟨[_], _, rfl, ⟨_, rfl, rfl, rfl⟩, exRange_toks⟩, ⟨_, rfl, rfl, by decide⟩⟩
    · exact ⟨[_], _, rfl, ⟨_, rfl, rfl⟩, _, [_], rfl, exRange_toks, ⟨_, rfl, rfl, by decide⟩⟩
    · exact ⟨[_], _, rfl, ⟨_, rfl, rfl⟩, [_], [_], rfl, ⟨_, rfl, rfl, rfl⟩, ⟨_, rfl, rfl, by decide⟩⟩
  · refine ⟨_, _, rfl, ⟨rfl, exRegs_toks⟩, _, _, rfl, ⟨rfl, exNets_toks⟩, _, _, rfl, ⟨rfl, exLoc_toks⟩, _, _, rfl, ⟨rfl, exLoop_toks⟩,
      sym .KW_GENERATE :: (exGIfText ++ [] ++ [sym .KW_ENDGENERATE]), _, rfl, ⟨rfl, ?_⟩, [_, _, _], [], rfl, ⟨rfl, ?_⟩, rfl⟩ <;> rw [SItem.Toks]
    · refine ⟨[_], _, rfl, ⟨_, rfl, rfl⟩, exGIfText ++ [], [_], rfl, ?_, ⟨_, rfl, rfl⟩⟩
      rw [itemsToks, itemsToks]
      exact ⟨_, [], rfl, exGIf_toks, rfl⟩
    · exact ⟨[_], _, rfl, ⟨_, rfl, rfl⟩, [_], _, rfl, ⟨_, rfl, rfl, by decide⟩, [], [_], rfl, rfl, ⟨_, rfl, rfl⟩⟩

theorem exOldMod_toks : exOldMod.Toks exOldModText := by
  refine ⟨[_], _, rfl, ⟨_, rfl, rfl⟩, [_], _, rfl, ⟨_, rfl, rfl, by decide⟩, [], _, rfl, rfl, [_, _, _, _, _], _, rfl, ?_, [_], _, rfl, ⟨_, rfl, rfl⟩, exOldModBody, _, rfl, ?_,
    [_], [], rfl, ⟨_, rfl, rfl⟩, rfl⟩
  · exact ⟨[_], _, rfl, ⟨_, rfl, rfl⟩, [_, _, _], [_], rfl, ⟨[_], _, rfl, ⟨_, rfl, rfl, by decide⟩, [_], _, rfl, ⟨_, rfl, rfl⟩, [_], [], rfl, ⟨_, rfl, rfl, by decide⟩, rfl⟩, ⟨_, rfl, rfl⟩⟩
  · refine ⟨_, _, rfl, ?_, [_, _, _, _], _, rfl, ?_, _, _, rfl, ?_, [_, _, _, _, _], [], rfl, ?_, rfl⟩
    · exact ⟨[_], _, rfl, ⟨_, rfl, rfl⟩, _, _, rfl, ⟨[_], _, rfl, ⟨_, rfl, rfl, rfl⟩, exRange_toks⟩, [_, _, _], _, rfl,
        ⟨[_], _, rfl, ⟨_, rfl, rfl, by decide⟩, [_], [_], rfl, ⟨_, rfl, rfl⟩, exNmE_toks _⟩, [], [_], rfl, rfl, ⟨_, rfl, rfl⟩⟩
    · exact ⟨[_], _, rfl, ⟨_, rfl, rfl⟩, [_], _, rfl, ⟨_, rfl, rfl, rfl⟩, [_], _, rfl, ⟨_, rfl, rfl, by decide⟩, [], [_], rfl, rfl, ⟨_, rfl, rfl⟩⟩
    · exact ⟨[_], _, rfl, ⟨_, rfl, rfl⟩, _, _, rfl, ⟨[_], _, rfl, ⟨_, rfl, rfl, rfl⟩, exRange_toks⟩, [_], _, rfl, ⟨_, rfl, rfl, by decide⟩, [], [_], rfl, rfl, ⟨_, rfl, rfl⟩⟩
    · rw [SModItem.Toks, exInts, SItem.Toks]
      exact ⟨rfl, [_], _, rfl, ⟨_, rfl, rfl, rfl⟩, [_, _, _], _, rfl, ⟨[_], _, rfl, ⟨_, rfl, rfl, by decide⟩, [_], [_], rfl, ⟨_, rfl, rfl⟩, exNmE_toks _⟩, [], [_], rfl, rfl, ⟨_, rfl, rfl⟩⟩

theorem exSource_toks : modsToks [exTop, exOldMod] (exTopText ++ (exOldModText ++ [])) := ⟨_, _, rfl, exTop_toks, _, [], rfl, exOldMod_toks, rfl⟩

theorem exTop_ok : exTop.Ok := by
  have hr : (exNmE (c! "w")).Ok ∧ (exNmE (c! "z")).Ok := ⟨exNmE_ok (by decide +kernel), exNmE_ok (by decide +kernel)⟩
  refine ⟨rfl, by decide +kernel, ?_, ?_, ?_, ?_⟩
  · simp only [exTop, parsOk, List.forall_mem_cons]
    refine ⟨⟨(fun k r h => by cases h), ?_⟩, ⟨?_, ?_⟩, by simp⟩
    · simp only [exPar, List.forall_mem_cons]
      exact ⟨⟨exId_ok (by decide +kernel), exNmE_ok (by decide +kernel)⟩, ⟨exId_ok (by decide +kernel), exNmE_ok (by decide +kernel)⟩, by simp⟩
    · rintro _ _ ⟨⟩; exact hr
    · simp only [exLocal, List.forall_mem_cons]
      exact ⟨⟨exId_ok (by decide +kernel), exNmE_ok (by decide +kernel)⟩, by simp⟩
  · refine ⟨?_, by simp [exTop, SModItem.portNames]⟩
    simp only [exTop, SPorts.all, List.forall_mem_cons]
    refine ⟨⟨exId_ok (by decide +kernel), ?_⟩, ⟨exId_ok (by decide +kernel), ?_⟩, ⟨exId_ok (by decide +kernel), ?_⟩, ⟨exId_ok (by decide +kernel), ?_⟩, ⟨exId_ok (by decide +kernel), ?_⟩, by simp⟩
    · rintro _ _ ⟨⟩; exact ⟨trivial, fun _ => rfl⟩
    · rintro _ _ ⟨⟩; exact hr
    · rintro _ _ ⟨⟩
    · rintro _ _ ⟨⟩; exact hr
    · rintro _ _ ⟨⟩; trivial
  · simp only [exTop, List.forall_mem_cons, SModItem.Ok, itemsOk, SItem.Ok]
    refine ⟨?_, ?_, ?_, exLoop_ok, ⟨exGIf_ok, trivial⟩, ?_, by simp⟩
    · rw [exRegs, SItem.Ok]
      simp only [List.forall_mem_cons]
      refine ⟨hr, ⟨exId_ok (by decide +kernel), ?_⟩, ⟨exId_ok (by decide +kernel), ?_⟩, by simp⟩
      · rintro _ ⟨⟩
      · rintro _ ⟨⟩; exact exNmE_ok (by decide +kernel)
    · rw [exNets, SItem.Ok]
      simp only [List.forall_mem_cons]
      refine ⟨hr, (fun h => by cases h), ⟨exId_ok (by decide +kernel), ?_⟩, ⟨exId_ok (by decide +kernel), ?_⟩, by simp⟩
      · rintro _ ⟨⟩
      · rintro _ ⟨⟩; exact exNmE_ok (by decide +kernel)
    · rw [exLoc, SItem.Ok]
      simp only [List.forall_mem_cons]
      exact ⟨(fun k r h => by cases h), ⟨exId_ok (by decide +kernel), exNmE_ok (by decide +kernel)⟩, ⟨exId_ok (by decide +kernel), exNmE_ok (by decide +kernel)⟩, by simp⟩
    exact ⟨exId_ok (by decide +kernel), by simp⟩
  · simp [apart, exTop, SModItem.names, itemsNames, SItem.names, exRegs, exNets, exLoc, exLoop, exGIf, SPorts.portNames, SPorts.all, identStr]

theorem exOldMod_ok : exOldMod.Ok := by
  have hr : (exNmE (c! "w")).Ok ∧ (exNmE (c! "z")).Ok := ⟨exNmE_ok (by decide +kernel), exNmE_ok (by decide +kernel)⟩
  refine ⟨rfl, by decide +kernel, trivial, ⟨?_, ?_, ?_⟩, ?_, by simp [apart, exOldMod, SModItem.names, exInts, SItem.names, SPorts.portNames, SPorts.all, identStr]⟩
  · simp only [List.forall_mem_cons]
    exact ⟨exId_ok (by decide +kernel), exId_ok (by decide +kernel), by simp⟩
  · simp [identName]
  · simp only [exOldMod, List.flatMap_cons, List.flatMap_nil, SModItem.portNames, List.nil_append, List.cons_append, List.map_cons, List.map_nil]
    exact .swap _ _ _
  · simp only [exOldMod, List.forall_mem_cons, SModItem.Ok]
    refine ⟨⟨rfl, ?_, ⟨exId_ok (by decide +kernel), exNmE_ok (by decide +kernel)⟩, by simp⟩, ⟨trivial, exId_ok (by decide +kernel), by simp⟩, ⟨hr, exId_ok (by decide +kernel), by simp⟩, ?_, by simp⟩
    · rintro _ _ ⟨⟩; exact hr
    · rw [exInts, SItem.Ok]
      simp only [List.forall_mem_cons]
      refine ⟨⟨exId_ok (by decide +kernel), ?_⟩, by simp⟩
      rintro _ ⟨⟩; exact exNmE_ok (by decide +kernel)

example : ∃ (ts : List Mod) (os : _), parseSource exRules exStmRules exItemRules exModRules (exTopText ++ (exOldModText ++ [])) = some (ts.map .module_) ∧ visitSource (ts.map .module_) = .ok os ∧
    astItems Term.alg STerm.alg MTerm.alg Term.tok os = some [exTop.eval Term.alg STerm.alg MTerm.alg, exOldMod.eval Term.alg STerm.alg MTerm.alg] := by
  obtain ⟨t, h1, -, h2⟩ := C128_source_text_partial Term.alg STerm.alg MTerm.alg Term.tok Term.agrees STerm.agrees MTerm.agrees exRules exStmRules exItemRules exModRules [exTop, exOldMod] _ exSource_toks
  obtain ⟨o, h3, h4⟩ := h2 (by simp only [List.forall_mem_cons]; exact ⟨exTop_ok, exOldMod_ok, by simp⟩)
  exact ⟨t, o, h1, h3, h4⟩

example (l : List SMod) (h : modsToks l (exTopText ++ (exOldModText ++ []))) : l.map (SMod.eval Term.alg STerm.alg MTerm.alg) = [exTop, exOldMod].map (SMod.eval Term.alg STerm.alg MTerm.alg) :=
  C128_one_reading l _ _ h exSource_toks Term.alg STerm.alg MTerm.alg

end Verif.Sv

namespace Verif.Sv
open Verif.Antlr Verif.Spec Verif.Spec.SvLex

/-- C129 (supported fragment): the characters of a file with modules, with any layout, become objects with the meaning the LRM gives to the text: from
characters to the AST. Missing: as in C128 and C112. -/
theorem C129_file_partial {V S W : Type} (A : Spec.Sv.Alg V) (B : Spec.Sv.SAlg V S) (N : Spec.Sv.MAlg V S W) (leaf : Expr → V) (hA : Agrees A leaf) (hB : SAgrees A B)
    (hN : MAgrees N) (R : Rules) (C : StmRules) (G : ItemRules) (D : ModRules) (v : Version) (src : Str) (ts : List (LTy × Str)) (hd : Divided .supported v false src ts)
    (l : List Spec.SvLrm.SMod) (w : List STok) (hw : List.Forall₂ SeenAs ts w) (hl : Spec.SvLrm.modsToks l w) (hok : ∀ m ∈ l, m.Ok) :
    ∃ toks t os, lex v.code src = Option.some toks ∧ parseSource R C G D (toks.map LTok.tok) = Option.some t ∧
      visitSource t = .ok os ∧ Spec.Sv.astItems A B N leaf os = Option.some (l.map (Spec.SvLrm.SMod.eval A B N)) := by
  obtain ⟨t, h1, -, h2⟩ := C128_source_text_partial A B N leaf hA hB hN R C G D l w hl
  obtain ⟨o, h3, h4⟩ := h2 hok
  refine ⟨_, _, o, C112_elements_partial v src _ hd, ?_, h3, h4⟩
  rw [List.map_map, seen_all hw]; exact h1

/-- `module m(input a,output logic q);//x` `assign q=a;endmodule` -/
def exMSrc : Str := c! "module m(input a,output logic q);//x\nassign q=a;endmodule"
def exMElems : List (LTy × Str) := [(.kw (c! "module"), c! "module"), (.C_IDENTIFIER, c! "m"), (.sym (c! "("), c! "("), (.kw (c! "input"), c! "input"), (.C_IDENTIFIER, c! "a"), (.sym (c! ","), c! ","),
  (.kw (c! "output"), c! "output"), (.kw (c! "logic"), c! "logic"), (.C_IDENTIFIER, c! "q"), (.sym (c! ")"), c! ")"), (.sym (c! ";"), c! ";"), (.kw (c! "assign"), c! "assign"), (.C_IDENTIFIER, c! "q"),
  (.sym (c! "="), c! "="), (.C_IDENTIFIER, c! "a"), (.sym (c! ";"), c! ";"), (.kw (c! "endmodule"), c! "endmodule")]
def exMS : Spec.SvLrm.SMod := ⟨⟨false, c! "m"⟩, none, .list ⟨some (.input, .plain), ⟨false, c! "a"⟩⟩ [⟨some (.output, .vec .logic), ⟨false, c! "q"⟩⟩], [.item (.assign (exNm (c! "q"), exNmE (c! "a")) [])], none⟩
def exMText : List STok := [⟨.KW_MODULE, c! "module"⟩, idTok (c! "m"), ⟨.LPAREN, c! "("⟩, ⟨.KW_INPUT, c! "input"⟩, idTok (c! "a"), ⟨.COMMA, c! ","⟩, ⟨.KW_OUTPUT, c! "output"⟩, ⟨.KW_LOGIC, c! "logic"⟩,
  idTok (c! "q"), ⟨.RPAREN, c! ")"⟩, ⟨.SEMI, c! ";"⟩, ⟨.KW_ASSIGN, c! "assign"⟩, idTok (c! "q"), ⟨.ASSIGN, c! "="⟩, idTok (c! "a"), ⟨.SEMI, c! ";"⟩, ⟨.KW_ENDMODULE, c! "endmodule"⟩]

theorem exM_divided : Divided .supported .sv2012 false exMSrc exMElems := by
  refine elemB (w := c! "module") (kwP (by decide +kernel)) (by decide +kernel) (blank ?_)
  refine elemB (w := c! "m") (nameP (by decide +kernel)) (by decide +kernel) ?_
  refine elemB (w := c! "(") (symP (by decide +kernel)) (by decide +kernel) ?_
  refine elemB (w := c! "input") (kwP (by decide +kernel)) (by decide +kernel) (blank ?_)
  refine elemB (w := c! "a") (nameP (by decide +kernel)) (by decide +kernel) ?_
  refine elemB (w := c! ",") (symP (by decide +kernel)) (by decide +kernel) ?_
  refine elemB (w := c! "output") (kwP (by decide +kernel)) (by decide +kernel) (blank ?_)
  refine elemB (w := c! "logic") (kwP (by decide +kernel)) (by decide +kernel) (blank ?_)
  refine elemB (w := c! "q") (nameP (by decide +kernel)) (by decide +kernel) ?_
  refine elemB (w := c! ")") (symP (by decide +kernel)) (by decide +kernel) ?_
  refine elemB (w := c! ";") (symP (by decide +kernel)) (by decide +kernel) ?_
  refine .line (w := c! "x") (by decide) ?_
  refine elemB (w := c! "assign") (kwP (by decide +kernel)) (by decide +kernel) (blank ?_)
  refine elemB (w := c! "q") (nameP (by decide +kernel)) (by decide +kernel) ?_
  refine elemB (w := c! "=") (symP (by decide +kernel)) (by decide +kernel) ?_
  refine elemB (w := c! "a") (nameP (by decide +kernel)) (by decide +kernel) ?_
  refine elemB (w := c! ";") (symP (by decide +kernel)) (by decide +kernel) ?_
  exact elemB (w := c! "endmodule") (kwP (by decide +kernel)) (by decide +kernel) .nil

example : ∃ toks t os, lex Version.sv2012.code exMSrc = Option.some toks ∧ parseSource exRules exStmRules exItemRules exModRules (toks.map LTok.tok) = Option.some t ∧ visitSource t = .ok os ∧
    Spec.Sv.astItems Term.alg STerm.alg MTerm.alg Term.tok os = Option.some [exMS.eval Term.alg STerm.alg MTerm.alg] := by
  refine C129_file_partial Term.alg STerm.alg MTerm.alg Term.tok Term.agrees STerm.agrees MTerm.agrees exRules exStmRules exItemRules exModRules .sv2012 _ exMElems exM_divided [exMS] exMText ?_ ?_ ?_
  · refine .cons ⟨rfl, .inl rfl⟩ (.cons ⟨rfl, rfl⟩ (.cons ⟨rfl, .inl rfl⟩ (.cons ⟨rfl, .inl rfl⟩ (.cons ⟨rfl, rfl⟩ (.cons ⟨rfl, .inl rfl⟩ (.cons ⟨rfl, .inl rfl⟩ (.cons ⟨rfl, .inl rfl⟩ (.cons ⟨rfl, rfl⟩
      (.cons ⟨rfl, .inl rfl⟩ (.cons ⟨rfl, .inl rfl⟩ (.cons ⟨rfl, .inl rfl⟩ (.cons ⟨rfl, rfl⟩ (.cons ⟨rfl, .inl rfl⟩ (.cons ⟨rfl, rfl⟩ (.cons ⟨rfl, .inl rfl⟩ (.cons ⟨rfl, .inl rfl⟩ .nil))))))))))))))))
  · refine ⟨exMText, [], rfl, ?_, rfl⟩
    refine ⟨[_], _, rfl, ⟨_, rfl, rfl⟩, [_], _, rfl, ⟨_, rfl, rfl, by decide⟩, [], _, rfl, rfl, (exMText.drop 2).take 8, _, rfl, ?_, [_], _, rfl, ⟨_, rfl, rfl⟩, (exMText.drop 11).take 5, _, rfl, ?_,
      [_], [], rfl, ⟨_, rfl, rfl⟩, rfl⟩
    · exact ⟨rfl, [_], _, rfl, ⟨_, rfl, rfl⟩, (exMText.drop 3).take 6, [_], rfl, ⟨[_, _], _, rfl, ⟨[_], _, rfl, ⟨_, rfl, rfl⟩, [], [_], rfl, rfl, ⟨_, rfl, rfl, by decide⟩⟩, [_], _, rfl, ⟨_, rfl, rfl⟩, [_, _, _], [], rfl,
        ⟨[_], _, rfl, ⟨_, rfl, rfl⟩, [_], [_], rfl, ⟨_, rfl, rfl, rfl⟩, ⟨_, rfl, rfl, by decide⟩⟩, rfl⟩, ⟨_, rfl, rfl⟩⟩
    · refine ⟨(exMText.drop 11).take 5, [], rfl, ⟨rfl, ?_⟩, rfl⟩
      rw [Spec.SvLrm.SItem.Toks]
      exact ⟨[_], _, rfl, ⟨_, rfl, rfl⟩, [_, _, _], _, rfl, ⟨rfl, [_], _, rfl, exNm_toks _, [_], [_], rfl, ⟨_, rfl, rfl⟩, exNmE_toks _⟩, [], [_], rfl, rfl, ⟨_, rfl, rfl⟩⟩
  · intro m hm
    cases List.mem_singleton.1 hm
    refine ⟨rfl, by decide +kernel, trivial, ?_, ?_, ?_⟩
    · refine ⟨?_, by simp [exMS, Spec.SvLrm.SModItem.portNames]⟩
      simp only [exMS, Spec.SvLrm.SPorts.all, List.forall_mem_cons]
      refine ⟨⟨exId_ok (by decide +kernel), ?_⟩, ⟨exId_ok (by decide +kernel), ?_⟩, by simp⟩ <;> · rintro _ _ ⟨⟩; trivial
    · simp only [exMS, Spec.SvLrm.SModItem.Ok, Spec.SvLrm.SItem.Ok, List.mem_singleton, forall_eq]
      exact ⟨exNm_ok (by decide +kernel), exNmE_ok (by decide +kernel)⟩
    · simp [Spec.Sv.apart, exMS, Spec.SvLrm.SModItem.names, Spec.SvLrm.SItem.names]

end Verif.Sv
