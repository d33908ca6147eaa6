import Verif.VhdlStmGood
import Verif.Props.VhdlStm
import Verif.Props.VhdlLex
/-!
# Properties of the way from the tokens and characters of VHDL sequential statements to the AST (C118, C119)
-/
namespace Verif.Vhdl
open P Verif.Antlr Verif.Spec Verif.Spec.Lrm

/-- C118 (supported fragment): a sequence of statements written by the rules of the LRM is parsed completely, up to the token that closes it,
as these statements, and its AST has the meaning the LRM gives to the text, whatever the operators and statements mean. `follow` says with which
rests the parse of the file succeeds. Missing: what `seqsOk` excludes, see C83 (and C61, C102 for the expressions). -/
theorem C118_statements_meaning_partial {V S : Type} (A : Alg V) (B : SAlg V S) (leaf : Expr → V) (hA : Agrees A leaf) (hB : SAgrees B leaf)
    (hcall : ∀ f l, A.call f l = A.index f l) (l : List LSeq) (w : List VTok) (h : seqsToks l w) (y : VTok) (hy : y.ty ∈ afterStms) (rest : List VTok)
    (follow : List VTok → Bool) (hf : follow (y :: rest) = true) :
    ∃ t, parseStatements follow (w ++ y :: rest) = some (t, y :: rest) ∧ evSeqs A B t = seqsEval A B l ∧
      (seqsOk l → ∃ os, visitSeqs t = .ok os ∧ astObjs A B leaf os = some (seqsEval A B l)) := by
  have hl : w.length < (w ++ y :: rest).length := by rw [List.length_append, List.length_cons]; omega
  obtain ⟨t, m, f⟩ := seqs_rd (n := w.length) (stm := seqStm (env (4 * (w ++ y :: rest).length + 4)) (w ++ y :: rest).length)
    (fun R hR => seqStm_no hR)
    (fun s u R hs hu => seqStm_rd (good_all hcall w.length) (by omega) _ s u R hs hu (by omega)) h (Nat.le_refl _) (R := y :: rest) ⟨y.ty, rfl, hy⟩
  refine ⟨t, First.find f hf fun s hs => hs.elim, (seqs_eq m).1 B, fun hok => ?_⟩
  obtain ⟨os, h1, h2⟩ := C83_statements_meaning_partial A B leaf hA hB t ((seqs_eq m).2 hok)
  exact ⟨os, h1, by rw [h2, (seqs_eq m).1]⟩

/-- C118: a text has only one reading: two sequences of statements of the LRM with the same tokens mean the same. -/
theorem C118_one_reading (l l' : List LSeq) (w : List VTok) (h : seqsToks l w) (h' : seqsToks l' w) {V S : Type} (A : Alg V) (B : SAlg V S)
    (hcall : ∀ f l, A.call f l = A.index f l) : seqsEval A B l = seqsEval A B l' := by
  have key : ∀ l, seqsToks l w → ∃ t, evSeqs A B t = seqsEval A B l ∧
      (many (seqStm (env (3 * w.length + 3)) w.length) (w ++ [⟨.kw .END, []⟩])).find? (fun _ => true) = some (t, [⟨.kw .END, []⟩]) := by
    intro l h
    obtain ⟨t, m, f⟩ := seqs_rd (n := w.length) (stm := seqStm (env (3 * w.length + 3)) w.length) (fun R hR => seqStm_no hR)
      (fun s u R hs hu => seqStm_rd (good_all hcall w.length) (by omega) _ s u R hs hu hu) h (Nat.le_refl _) (R := [⟨.kw .END, []⟩]) ⟨.kw .END, rfl, by decide⟩
    exact ⟨t, (seqs_eq m).1 B, First.find (q := fun _ => true) f rfl fun s hs => hs.elim⟩
  obtain ⟨t, e, k⟩ := key l h
  obtain ⟨t', e', k'⟩ := key l' h'
  rw [k] at k'
  cases k'
  rw [← e, e']

/-! ## An example -/

/-- An identifier as a name, as an expression, as the text of both. -/
def lidN (s : Str) : LName := .lit (.ident s)
def lidE (s : Str) : LExpr := .one (.one (.one (.one (exNm s))))

theorem lidN_toks (s : Str) : (lidN s).Toks [idTok s] := by
  simp only [lidN, LName.Toks]
  exact ⟨_, rfl, exIdent s⟩

theorem lidE_toks (s : Str) : (lidE s).Toks [idTok s] := by
  simp only [lidE, exNm, LExpr.Toks, LRel.Toks, LShift.Toks, LSimple.Toks, LTerm.Toks, LFactor.Toks, LPrim.Toks, LName.Toks]
  exact ⟨_, rfl, exIdent s⟩

theorem lidE_ok (s : Str) : LExpr.Ok (lidE s) := by
  simp only [lidE, exNm, LExpr.Ok, LRel.Ok, LShift.Ok, LSimple.Ok, LTerm.Ok, LFactor.Ok, LPrim.Ok, LName.Ok]
  exact ⟨.id none s, rfl⟩

/-- A word or delimiter. -/
def kwTok (k : Kw) : VTok := sym (.kw k)

/-- `while d loop exit l when e; end loop;` -/
def exLoop : LSeq := .mk none (.loop (.while_ (lidE (c! "d"))) [.mk none (.exit (some (c! "l")) (some (lidE (c! "e"))))] none)
def exLoopText : List VTok := [kwTok .WHILE, idTok (c! "d"), kwTok .LOOP, kwTok .EXIT, idTok (c! "l"), kwTok .WHEN, idTok (c! "e"), sym .SEMI,
  kwTok .END, kwTok .LOOP, sym .SEMI]
/-- `case s is when f | g => v := a; when others => null; end case;` -/
def exCase : LSeq := .mk none (.case_ false (lidE (c! "s"))
  (.mk ⟨.expr (.one (exNm (c! "f"))), [.expr (.one (exNm (c! "g")))]⟩ [.mk none (.assign (.var (.name (lidN (c! "v"))) (lidE (c! "a"))))])
  [.mk ⟨.others, []⟩ [.mk none .null_]] none)
def exCaseText : List VTok := [kwTok .CASE, idTok (c! "s"), kwTok .IS, kwTok .WHEN, idTok (c! "f"), sym .BAR, idTok (c! "g"), sym .ARROW,
  idTok (c! "v"), sym .VARASGN, idTok (c! "a"), sym .SEMI, kwTok .WHEN, kwTok .OTHERS, sym .ARROW, kwTok .NULL, sym .SEMI, kwTok .END, kwTok .CASE, sym .SEMI]
/-- `x <= b;` -/
def exSig : LSeq := .mk none (.assign (.wave (.name (lidN (c! "x"))) .none (.elems (lidE (c! "b"), none) [])))
def exSigText : List VTok := [idTok (c! "x"), sym .CONASGN, idTok (c! "b"), sym .SEMI]
/-- `l : if a then x <= b; elsif c then while ... end loop; else case ... end case; end if l; p;` -/
def exStms : List LSeq := [
  .mk (some (c! "l")) (.if_ (lidE (c! "a")) [exSig] [.mk (lidE (c! "c")) [exLoop]] (.some [exCase]) (some (c! "l"))),
  .mk none (.call (lidN (c! "p")) [])]
def exStmsText : List VTok := [idTok (c! "l"), sym .COLON, kwTok .IF, idTok (c! "a"), kwTok .THEN] ++ exSigText ++
  [kwTok .ELSIF, idTok (c! "c"), kwTok .THEN] ++ exLoopText ++ [kwTok .ELSE] ++ exCaseText ++ [kwTok .END, kwTok .IF, idTok (c! "l"), sym .SEMI] ++
  [idTok (c! "p"), sym .SEMI]

theorem exLoop_toks : exLoop.Toks exLoopText := by
  simp only [exLoop, LSeq.Toks, LStm.Toks, seqsToks, Opt', LIter.Toks]
  refine ⟨[], _, rfl, rfl, exLoopText.take 2, _, rfl, ⟨[_], _, rfl, ⟨_, rfl, rfl⟩, lidE_toks _⟩, [_], _, rfl, ⟨_, rfl, rfl⟩,
    (exLoopText.drop 3).take 5, exLoopText.drop 8, rfl, ⟨_, [], (List.append_nil _).symm, ⟨[], _, rfl, rfl, ?_⟩, rfl⟩,
    [_], _, rfl, ⟨_, rfl, rfl⟩, [_], _, rfl, ⟨_, rfl, rfl⟩, [], _, rfl, rfl, [], _, rfl, rfl, ⟨_, rfl, rfl⟩⟩
  exact ⟨[_], _, rfl, ⟨_, rfl, rfl⟩, [_], _, rfl, ⟨_, rfl, exIdent _⟩, [kwTok .WHEN, idTok (c! "e")], _, rfl, ⟨[_], _, rfl, ⟨_, rfl, rfl⟩, lidE_toks _⟩, ⟨_, rfl, rfl⟩⟩

theorem exSig_toks : exSig.Toks exSigText := by
  simp only [exSig, LSeq.Toks, LStm.Toks, LAssign.Toks, sigToks, LTarget.Toks, LDelay.Toks, LWave.Toks, elemToks, Opt', Rep]
  exact ⟨[], _, rfl, rfl, [_], _, rfl, lidN_toks _, [_], _, rfl, ⟨_, rfl, rfl⟩, [_], [_], rfl, ⟨[], [_], rfl, rfl, [_], [], rfl,
    ⟨[_], [], rfl, lidE_toks _, rfl⟩, rfl⟩, ⟨_, rfl, rfl⟩⟩

theorem exNm_toks (s : Str) : LSimple.Toks (.one (exNm s)) [idTok s] := by
  simp only [exNm, LSimple.Toks, LTerm.Toks, LFactor.Toks, LPrim.Toks, LName.Toks]
  exact ⟨_, rfl, exIdent s⟩

theorem exCase_toks : exCase.Toks exCaseText := by
  simp only [exCase, LSeq.Toks, LStm.Toks, LAlt.Toks, altsToks, seqsToks, Opt', Flag, LChoices.Toks, choicesToks, LChoice.Toks, LAssign.Toks, varToks, LTarget.Toks]
  refine ⟨[], _, rfl, rfl, [_], _, rfl, ⟨_, rfl, rfl⟩, [], _, rfl, rfl, [_], _, rfl, lidE_toks _, [_], _, rfl, ⟨_, rfl, rfl⟩,
    (exCaseText.drop 3).take 9, exCaseText.drop 12, rfl, ?_, (exCaseText.drop 12).take 5, exCaseText.drop 17, rfl, ⟨_, [], (List.append_nil _).symm, ?_, rfl⟩, ?_⟩
  · refine ⟨[_], _, rfl, ⟨_, rfl, rfl⟩, [idTok (c! "f"), sym .BAR, idTok (c! "g")], _, rfl, ⟨[_], _, rfl, exNm_toks _, [_], _, rfl, ⟨_, rfl, rfl⟩, [_], [], rfl, exNm_toks _, rfl⟩,
      [_], _, rfl, ⟨_, rfl, rfl⟩, _, [], (List.append_nil _).symm, ⟨[], _, rfl, rfl, [_], _, rfl, lidN_toks _, [_], _, rfl, ⟨_, rfl, rfl⟩, [_], _, rfl, lidE_toks _, ⟨_, rfl, rfl⟩⟩, rfl⟩
  · exact ⟨[_], _, rfl, ⟨_, rfl, rfl⟩, [_], _, rfl, ⟨[_], [], rfl, ⟨_, rfl, rfl⟩, rfl⟩, [_], _, rfl, ⟨_, rfl, rfl⟩, _, [], (List.append_nil _).symm,
      ⟨[], _, rfl, rfl, [_], _, rfl, ⟨_, rfl, rfl⟩, ⟨_, rfl, rfl⟩⟩, rfl⟩
  · exact ⟨[_], _, rfl, ⟨_, rfl, rfl⟩, [_], _, rfl, ⟨_, rfl, rfl⟩, [], _, rfl, rfl, [], _, rfl, rfl, ⟨_, rfl, rfl⟩⟩

theorem exStms_toks : seqsToks exStms exStmsText := by
  simp only [exStms, seqsToks, LSeq.Toks, LStm.Toks, elsIfsToks, LElse.Toks, Opt']
  refine ⟨exStmsText.take 48, exStmsText.drop 48, rfl, ⟨[_, _], _, rfl, ⟨[_], _, rfl, ⟨_, rfl, exIdent _⟩, ⟨_, rfl, rfl⟩⟩, [_], _, rfl, ⟨_, rfl, rfl⟩, [_], _, rfl, lidE_toks _,
    [_], _, rfl, ⟨_, rfl, rfl⟩, exSigText ++ [], _, rfl, ⟨_, _, rfl, exSig_toks, rfl⟩,
    (exStmsText.drop 9).take 14, exStmsText.take 48 |>.drop 23, rfl, ⟨[_], _, rfl, ⟨_, rfl, rfl⟩, [_], _, rfl, lidE_toks _, [_], _, rfl, ⟨_, rfl, rfl⟩,
      exLoopText ++ [], [], rfl, ⟨_, _, rfl, exLoop_toks, rfl⟩, rfl⟩,
    (exStmsText.drop 23).take 21, _, rfl, ⟨[_], exCaseText ++ [], rfl, ⟨_, rfl, rfl⟩, _, _, rfl, exCase_toks, rfl⟩,
    [_], _, rfl, ⟨_, rfl, rfl⟩, [_], _, rfl, ⟨_, rfl, rfl⟩, [], _, rfl, rfl, [_], _, rfl, ⟨_, rfl, exIdent _⟩, ⟨_, rfl, rfl⟩⟩,
    _, [], (List.append_nil _).symm, ⟨[], _, rfl, rfl, [_], _, rfl, ⟨rfl, lidN_toks _⟩, ⟨_, rfl, rfl⟩⟩, rfl⟩

theorem exSig_ok : LSeq.Ok exSig := by
  simp only [exSig, LSeq.Ok, LStm.Ok, LStm.endLabel]
  exact ⟨⟨⟨.id none _, rfl⟩, lidE_ok _⟩, .inl trivial⟩

theorem exStms_ok : seqsOk exStms := by
  have hn : ∀ s, LName.Ok (lidN s) := fun s => by simp only [lidN, LName.Ok]; exact ⟨.id none s, rfl⟩
  have hs : ∀ s, LSimple.Ok (.one (exNm s)) := fun s => by
    simp only [exNm, LSimple.Ok, LTerm.Ok, LFactor.Ok, LPrim.Ok, LName.Ok]
    exact ⟨.id none s, rfl⟩
  have ho : ∀ s, optOk (some (lidE s)) := fun s e h => by cases h; exact lidE_ok s
  have h1 := exSig_ok
  have h2 : LSeq.Ok exLoop := by
    simp only [exLoop, LSeq.Ok, LStm.Ok, LStm.endLabel, seqsOk]
    exact ⟨⟨lidE_ok _, ⟨ho _, .inl trivial⟩, trivial⟩, .inl trivial⟩
  have h3 : LSeq.Ok exCase := by
    simp only [exCase, LSeq.Ok, LStm.Ok, LStm.endLabel, seqsOk, LAlt.Ok, altsOk, LChoices.list]
    refine ⟨⟨trivial, lidE_ok _, ⟨fun x hx => ?_, ⟨⟨hn _, lidE_ok _⟩, .inl trivial⟩, trivial⟩, ⟨⟨fun x hx => ?_, ⟨trivial, .inl trivial⟩, trivial⟩, trivial⟩, by decide⟩, .inl trivial⟩
    · simp only [List.mem_cons, List.not_mem_nil, or_false] at hx
      rcases hx with rfl | rfl <;> exact hs _
    · cases List.mem_singleton.1 hx
      trivial
  simp only [exStms, seqsOk, LSeq.Ok, LStm.Ok, elsIfsOk, LElse.Ok, LStm.endLabel]
  refine ⟨⟨⟨lidE_ok _, ⟨h1, trivial⟩, ⟨lidE_ok _, ⟨h2, trivial⟩, trivial⟩, h3, trivial⟩, .inr trivial⟩, ⟨⟨hn _, trivial, fun s hs => ?_⟩, .inl trivial⟩, trivial⟩
  intro e
  have e : NameLit.ident (c! "p") = .ident s := Option.some.inj e
  cases e
  exact absurd hs (by decide)

example : ∃ t os, parseStatements (fun _ => true) (exStmsText ++ [kwTok .END]) = some (t, [kwTok .END]) ∧ visitSeqs t = .ok os ∧
    astObjs Term.alg1 STerm.alg Term.tok os = some (seqsEval Term.alg1 STerm.alg exStms) := by
  obtain ⟨t, h1, -, h2⟩ := C118_statements_meaning_partial Term.alg1 STerm.alg Term.tok Term.agrees1 STerm.agrees (fun _ _ => rfl) exStms exStmsText exStms_toks (kwTok .END)
    (by decide) [] (fun _ => true) rfl
  obtain ⟨os, h3, h4⟩ := h2 exStms_ok
  exact ⟨t, os, h1, h3, h4⟩

example (l : List LSeq) (h : seqsToks l exStmsText) : seqsEval Term.alg1 STerm.alg l = seqsEval Term.alg1 STerm.alg exStms :=
  C118_one_reading l exStms exStmsText h exStms_toks Term.alg1 STerm.alg fun _ _ => rfl

/-- C119 (supported fragment): the text of a sequence of statements, with any layout, becomes an AST with the meaning the LRM gives to the text:
from characters to the AST. Missing: as in C118 and C105. -/
theorem C119_source_statements_partial {V S : Type} (A : Alg V) (B : SAlg V S) (leaf : Expr → V) (hA : Agrees A leaf) (hB : SAgrees B leaf)
    (hcall : ∀ f l, A.call f l = A.index f l) (s : Str) (ts : List (VT × Str)) (y : VT × Str) (rest : List (VT × Str))
    (hd : Divided .supported none s (ts ++ y :: rest)) (l : List LSeq) (hl : seqsToks l (ts.map tokenOf)) (hok : seqsOk l) (hy : y.1 ∈ afterStms)
    (follow : List VTok → Bool) (hf : follow ((y :: rest).map tokenOf) = true) :
    ∃ toks t os, lex s = some toks ∧ parseStatements follow toks = some (t, (y :: rest).map tokenOf) ∧ visitSeqs t = .ok os ∧
      astObjs A B leaf os = some (seqsEval A B l) := by
  obtain ⟨t, h1, -, h2⟩ := C118_statements_meaning_partial A B leaf hA hB hcall l _ hl (tokenOf y) hy (rest.map tokenOf) follow hf
  obtain ⟨os, h3, h4⟩ := h2 hok
  refine ⟨_, t, os, C105_elements_partial s _ hd, ?_, h3, h4⟩
  rw [List.map_append]; exact h1

/-- `a` with one letter, as an element. -/
theorem divided_id {c : Char} {s : Str} {p : Option VT} {ts : List (VT × Str)} (h1 : letter c = true) (h2 : [c.toLower] ∉ reserved)
    (h3 : c.toNat < 128 ∨ c = 'Å') (h4 : NotHead wordChar s) (h5 : NotHead (· == '"') s) (h : Divided .supported (some .BASIC_IDENTIFIER) s ts) :
    Divided .supported p (c :: s) ((.BASIC_IDENTIFIER, [c]) :: ts) :=
  .elem (w := [c]) ⟨⟨c, [], rfl, h1, rfl⟩, h2⟩ ⟨h4, fun _ => h5⟩ (no_tick (by decide) (by decide)) (lim (by decide) (by decide) (by decide) (by simpa using h3)) h

/-- `x<=b; END` -/
def exSource : List (VT × Str) := [(.BASIC_IDENTIFIER, c! "x"), (.CONASGN, c! "<="), (.BASIC_IDENTIFIER, c! "b"), (.SEMI, c! ";")]

theorem exSource_divided : Divided .supported none (c! "x<=b; END") (exSource ++ [(.kw .END, c! "END")]) := by
  refine divided_id (by decide) (by decide +kernel) (by decide) (notHead (by decide)) (notHead (by decide)) ?_
  refine .elem (w := c! "<=") (by simp only [Element]; decide) ⟨by decide, by decide, by decide⟩ (no_tick (by decide) (by decide))
    (lim (by decide) (by decide) (by decide) (by decide)) ?_
  refine divided_id (by decide) (by decide +kernel) (by decide) (notHead (by decide)) (notHead (by decide)) ?_
  refine .elem (w := c! ";") (by simp only [Element]; decide) ⟨by decide, by decide, by decide⟩ (no_tick (by decide) (by decide))
    (lim (by decide) (by decide) (by decide) (by decide)) (.sep (by decide) (show ' ' ∈ _ by decide) ?_)
  exact .elem (w := c! "END") (by simp only [Element]; decide) ⟨fun _ h => (nomatch h), fun _ _ h => (nomatch h)⟩ (no_tick (by decide) (by decide))
    (lim (by decide) (by decide) (by decide) (by decide)) .nil

example : ∃ toks t os, lex (c! "x<=b; END") = some toks ∧ parseStatements (fun _ => true) toks = some (t, [tokenOf (.kw .END, c! "END")]) ∧ visitSeqs t = .ok os ∧
    astObjs Term.alg1 STerm.alg Term.tok os = some (seqsEval Term.alg1 STerm.alg [exSig]) := by
  refine C119_source_statements_partial Term.alg1 STerm.alg Term.tok Term.agrees1 STerm.agrees (fun _ _ => rfl) _ exSource _ [] exSource_divided [exSig] ?_
    ⟨exSig_ok, trivial⟩ (by decide) _ rfl
  have hi : ∀ {c : Char}, bytes [c] = [c] → NameLit.Tok (.ident [c]) (tokenOf (.BASIC_IDENTIFIER, [c])) := fun h => ⟨.inl rfl, h⟩
  simp only [seqsToks, exSig, LSeq.Toks, LStm.Toks, LAssign.Toks, sigToks, LTarget.Toks, LDelay.Toks, LWave.Toks, elemToks, Opt', Rep, lidE, lidN, exNm, LExpr.Toks,
    LRel.Toks, LShift.Toks, LSimple.Toks, LTerm.Toks, LFactor.Toks, LPrim.Toks, LName.Toks]
  exact ⟨_, [], (List.append_nil _).symm, ⟨[], _, rfl, rfl, [_], _, rfl, ⟨_, rfl, hi rfl⟩, [_], _, rfl, ⟨_, rfl, rfl⟩, [_], [_], rfl, ⟨[], [_], rfl, rfl, [_], [], rfl,
    ⟨[_], [], rfl, ⟨_, rfl, hi rfl⟩, rfl⟩, rfl⟩, ⟨_, rfl, rfl⟩⟩, rfl⟩

end Verif.Vhdl
