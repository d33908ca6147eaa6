import Verif.SvPyLemmas
import Verif.Props.ToPyObj
import Verif.Props.SvModule

/-!
# C91 for SystemVerilog: which sources reach Python
-/

namespace Verif
open Spec Spec.Sv Sv

/-- C91: the result of parsing a SystemVerilog source reaches Python if all texts can be decoded and the source has no `{}`, no `do` `while`
statement and no `extern` module whose first ANSI port has no direction. Missing: which of the other sources reach Python. Some do (an ignored
item may contain `{}`), `C91_violated_do_while`, `C91_violated_extern` and `C91_violated_empty_concat` show that the three conditions are needed. -/
theorem C91_sv_source_partial (dec : Str → Option Str) (l : List Desc) (os : List Obj) (h : visitSource l = .ok os) (hf : ∀ d ∈ l, fullDesc d)
    (ht : ∀ s ∈ fileTexts os, ∃ t, dec (cut s) = some t) : ∃ p, toPyContext dec os = .ok p := by
  rw [context_ok, toPyOs_ok]
  exact ⟨source_wf l hf os h, fun s hs => ht s ((mem_textsOs s os).1 hs)⟩

/-- C91: the same for a single statement, e.g. one a user built a process of. -/
theorem C91_sv_statement_partial (dec : Str → Option Str) (s : StmN) (o : Obj) (h : visitStmN s = .ok o) (hf : fullStmN s)
    (ht : ∀ s ∈ texts o, ∃ t, dec (cut s) = some t) : ∃ p, toPyO dec o = .ok p :=
  (C91_success_iff dec o).2 ⟨stmN_wf s hf o h, ht⟩

/-- A module with a port declared in the body and with the module of `Verif/Props/SvModule.lean` inside. -/
def exNested : Mod := .mk false ⟨idI (c! "top"), none⟩ (.list (.nonansi [some (.expr (.one (.mk (idI (c! "x")) none [])))]))
  [.port (.input none [⟨idI (c! "x"), [], none⟩]), .module_ exMod]

/-- `extern module e(input a, b);` -/
def exExtern : Mod := .mk true ⟨idI (c! "e"), none⟩ (.list (.ansi [.decl (.dir .input none) (idI (c! "a")) [] none,
  .decl .none (idI (c! "b")) [] none])) []

set_option linter.unusedSimpArgs false in
theorem full_exSource : ∀ d ∈ [Desc.module_ exNested, .other, .module_ exExtern], fullDesc d := by
  simp [exMod, exNested, exExtern, exVec, exRange, idE, idT, idI, idP, asg, fullExp, fullPrim, fullMTM, fullARange, fullConcat, fullExps,
    fullPath, fullPathItems, fullPathItem, fullPVA, fullPExprs, fullPExpr, fullNamedPs, fullNamedP, fullDType, fullVDims, fullVDim,
    fullTRef, fullPattern, fullKVs, fullKV, fullKey, fullLVal, fullLVals, fullHSel, fullMembers, fullSel, fullArgs, fullArg, fullOpt,
    fullHierId, fullImplType, fullTypeI, fullAssign, fullOpAssign, fullCondPred, fullNetOrVar, fullNetPort, fullVarDType, fullAnsiHead,
    fullAnsiPort, fullDotIndex, fullNonansiExpr, fullNonansiPort, fullPortList, fullVarId, fullNonansiDecl, fullTfPort, fullTfPortDecl,
    fullParamAssign, fullTypeAssign, fullParamDecl, fullPortParam, fullParamPorts, fullVarInit, fullVarDecl, fullTypeDecl, fullDataDecl,
    fullNetAssign, fullNetDecl, fullEventItem, fullEventItems, fullEventCtl, fullDelayVal, fullDelayCtl, fullTimingCtl, fullDelayOrEvent,
    fullBlockDecl, fullForDecl, fullForInit, fullMatchItem, fullStm, fullStmN, fullStmNs, fullStmItem, fullCaseItem, fullCaseItems,
    fullNamedConn, fullConns, fullHierInst, fullModInst, fullGateName, fullGate, fullTfItem, fullTfHead, fullTfDecl, fullFnRet, fullTfDef,
    fullGenIter, fullGenItem, fullGItem, fullGItems, fullCaseGItem, fullCaseGItems, fullHdrPorts, firstDir, fullMod, fullModItems,
    fullModItem, fullDesc]

example : ∃ os p, visitSource [.module_ exNested, .other, .module_ exExtern] = .ok os ∧ toPyContext some os = .ok p := by
  have h : ∃ os, visitSource [.module_ exNested, .other, .module_ exExtern] = .ok os := ⟨_, rfl⟩
  obtain ⟨os, h⟩ := h
  obtain ⟨p, hp⟩ := C91_sv_source_partial some _ os h full_exSource fun s _ => ⟨_, rfl⟩
  exact ⟨os, p, h, hp⟩

/-- C91 is violated by `extern` modules whose first port has no direction: `extern module m(wire a);` is parsed, the port should be an `inout`
as in a module, but its direction stays unknown and the conversion raises `ValueError`. -/
theorem C91_violated_extern (dec : Str → Option Str) (hd : ∀ s, ∃ t, dec s = some t) :
    ∃ os, visitSource [.module_ (.mk true ⟨idI (c! "m"), none⟩
      (.list (.ansi [.decl (.type (.net (c! "wire") none)) (idI (c! "a")) [] none])) [])] = .ok os ∧ toPyContext dec os = .error .value := by
  refine ⟨_, rfl, ?_⟩
  obtain ⟨r, hr⟩ := hd (c! "m")
  obtain ⟨a, ha⟩ := hd (c! "a")
  simp [toPyContext, toPyOs, toPyO, idI, AnsiPort.dir?, defaultType, pyIdDefs, pyIdDef, pyName, pyUnicode, hr, ha, pyDir, Dir.toString, pyOpt, toPy,
    bind, Except.bind, pure, Except.pure]

/-- C91 is violated by `{}`: `assign x = ~{};` is parsed, but what is parsed does not reach Python. -/
theorem C91_violated_empty_concat (dec : Str → Option Str) :
    ∃ os, visitSource [.module_ (.mk false ⟨idI (c! "m"), none⟩ .none
      [.item (.assign [(idT (c! "x"), .unary .neg (.concat (.list [])))])])] = .ok os ∧ ∀ p, toPyContext dec os ≠ .ok p := by
  refine ⟨_, rfl, fun p hp => ?_⟩
  obtain ⟨q, hq⟩ := (C91_context_success_iff dec _).1 ⟨p, hp⟩ _ (.head _)
  have hw := ((C91_success_iff dec _).1 ⟨q, hq⟩).1
  exact hw.2.2.1.2.1.1

end Verif
