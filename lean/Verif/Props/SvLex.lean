import Verif.SvLexDec
import Verif.VhdlLexMain
import Verif.Props.SvText
/-!
# Properties of the way from SystemVerilog texts to tokens and to the AST (C112-C116)
-/
namespace Verif.Sv
open Verif.Antlr Verif.Spec Verif.Spec.SvLex

/-- C112 (supported fragment): a text which is divided into lexical elements by the rules of the LRM is read as these elements, each with its
type and its text, and without a lexical error, in every version of the language. Missing: texts outside of `Limits.supported`, see
the violations below. -/
theorem C112_elements_partial (v : Version) (s : Str) (ts : List (LTy × Str)) (h : Divided .supported v false s ts) :
    lex v.code s = Option.some (ts.map SvLex.tokenOf) :=
  lex_divided h

theorem tokenOf_inj {x y : LTy × Str} (h : SvLex.tokenOf x = SvLex.tokenOf y) : x = y :=
  Prod.ext (congrArg LTok.ty h) (Vhdl.bytes_inj (congrArg LTok.text h))

/-- C112: a text of the supported fragment is divided in only one way. -/
theorem C112_one_division (v : Version) (s : Str) (ts ts' : List (LTy × Str)) (h : Divided .supported v false s ts)
    (h' : Divided .supported v false s ts') : ts = ts' := by
  have e := lex_divided h
  rw [lex_divided h', Option.some.injEq] at e
  exact (List.map_injective_iff.2 (fun _ _ => tokenOf_inj) e).symm

/-- A text with a comment, a string with an escape sequence, an escaped identifier and the table of a primitive. -/
def exSrc : Str := c! "x <= 8'h fF+\\a+b [3]; // it's\n$f(\"a\\n\", 1.5e-3, 10ns)<<<'1/*;**/table 0(x1):?;\nendtable end_q"
def exElems : List (LTy × Str) := [(.C_IDENTIFIER, c! "x"), (.sym (c! "<="), c! "<="), (.BASED_NUMBER_WITH_SIZE, c! "8'h fF"), (.sym (c! "+"), c! "+"),
  (.ESCAPED_IDENTIFIER, c! "\\a+b "), (.sym (c! "["), c! "["), (.UNSIGNED_NUMBER, c! "3"), (.sym (c! "]"), c! "]"), (.sym (c! ";"), c! ";"),
  (.SYSTEM_TF_IDENTIFIER, c! "$f"), (.sym (c! "("), c! "("), (.STRING_LITERAL, c! "\"a\\n\""), (.sym (c! ","), c! ","),
  (.REAL_NUMBER_WITH_EXP, c! "1.5e-3"), (.sym (c! ","), c! ","), (.TIME_LITERAL, c! "10ns"), (.sym (c! ")"), c! ")"), (.sym (c! "<<<"), c! "<<<"),
  (.UNBASED_UNSIZED_LITERAL, c! "'1"), (.kw (c! "table"), c! "table"), (.LEVEL_SYMBOL, c! "0"), (.sym (c! "("), c! "("), (.LEVEL_SYMBOL, c! "x"),
  (.LEVEL_SYMBOL, c! "1"), (.sym (c! ")"), c! ")"), (.sym (c! ":"), c! ":"), (.LEVEL_SYMBOL, c! "?"), (.sym (c! ";"), c! ";"),
  (.kw (c! "endtable"), c! "endtable"), (.C_IDENTIFIER, c! "end_q")]

theorem blank {v : Version} {s : Str} {ts : List (LTy × Str)} (h : Divided .supported v false s ts) : Divided .supported v false (' ' :: s) ts :=
  .sep (by decide) (by intro e; cases e) h
theorem symP {v : Version} {w : Str} (h : (symbols v).contains w = true) : Plain v (.sym w) w := ⟨rfl, List.contains_iff_mem.1 h⟩
theorem kwP {v : Version} {w : Str} (h : (reserved v).contains w = true) : Plain v (.kw w) w := ⟨rfl, .inl (List.contains_iff_mem.1 h)⟩
theorem nameP {v : Version} {w : Str} (h : (identB w && !w.contains '$' && !(reserved v).contains w && !special.contains w) = true) : Plain v .C_IDENTIFIER w := by
  simp only [Bool.and_eq_true, Bool.not_eq_true', ← Bool.not_eq_true, List.contains_iff_mem] at h
  exact ⟨ident_iff.2 h.1.1.1, h.1.1.2, h.1.2, h.2⟩
theorem tsymP {w : Str} (h : [c! "(", c! ")", c! ":", c! ";", c! "-"].contains w = true) : InTable (.sym w) w := ⟨rfl, List.contains_iff_mem.1 h⟩
theorem levelP {c : Char} (h : ['0', '1', 'x', 'X', '?', 'b', 'B'].contains c = true) : InTable .LEVEL_SYMBOL [c] := ⟨c, rfl, List.contains_iff_mem.1 h⟩

theorem exSrc_divided : Divided .supported .sv2017 false exSrc exElems := by
  refine elemB (w := c! "x") (nameP (by decide +kernel)) (by decide +kernel) (blank ?_)
  refine elemB (w := c! "<=") (symP (by decide +kernel)) (by decide +kernel) (blank ?_)
  refine elemB (w := c! "8'h fF") ⟨c! "8", c! "'h fF", rfl, by decide, [], 'h', c! " ", c! "fF", rfl, .inl rfl, by decide, by simp [Value]; decide⟩ (by decide +kernel) ?_
  refine elemB (w := c! "+") (symP (by decide +kernel)) (by decide +kernel) ?_
  refine elemB (w := c! "\\a+b ") ⟨c! "a+b", c! " ", rfl, by decide, by decide, by decide⟩ (by decide +kernel) ?_
  refine elemB (w := c! "[") (symP (by decide +kernel)) (by decide +kernel) ?_
  refine elemB (w := c! "3") (show figures digit _ = true by decide) (by decide +kernel) ?_
  refine elemB (w := c! "]") (symP (by decide +kernel)) (by decide +kernel) ?_
  refine elemB (w := c! ";") (symP (by decide +kernel)) (by decide +kernel) (blank ?_)
  refine .line (w := c! " it's") (by decide) ?_
  refine elemB (w := c! "$f") ⟨⟨c! "f", rfl, by decide, by decide⟩, by decide +kernel⟩ (by decide +kernel) ?_
  refine elemB (w := c! "(") (symP (by decide +kernel)) (by decide +kernel) ?_
  refine elemB (w := c! "\"a\\n\"") ⟨c! "a\\n", rfl, by decide⟩ (by decide +kernel) ?_
  refine elemB (w := c! ",") (symP (by decide +kernel)) (by decide +kernel) (blank ?_)
  refine elemB (w := c! "1.5e-3") ⟨c! "1.5", 'e', c! "-", c! "3", rfl, .inr ⟨c! "1", c! "5", rfl, by decide, by decide⟩, .inl rfl, .inr (.inr rfl), by decide⟩
    (by decide +kernel) ?_
  refine elemB (w := c! ",") (symP (by decide +kernel)) (by decide +kernel) (blank ?_)
  refine elemB (w := c! "10ns") ⟨c! "10", c! "ns", rfl, .inl (by decide), by decide⟩ (by decide +kernel) ?_
  refine elemB (w := c! ")") (symP (by decide +kernel)) (by decide +kernel) ?_
  refine elemB (w := c! "<<<") (symP (by decide +kernel)) (by decide +kernel) ?_
  refine elemB (w := c! "'1") (show _ ∈ unbased by decide) (by decide +kernel) ?_
  refine .block (w := c! ";*") (by decide) ?_
  refine elemB (w := c! "table") (kwP (by decide +kernel)) (by decide +kernel) ?_
  refine .sep (by decide) (by intro _; decide) (elemT (w := c! "0") (levelP (by decide)) (by decide +kernel) ?_)
  refine elemT (w := c! "(") (tsymP (by decide)) (by decide +kernel) ?_
  refine elemT (w := c! "x") (levelP (by decide)) (by decide +kernel) ?_
  refine elemT (w := c! "1") (levelP (by decide)) (by decide +kernel) ?_
  refine elemT (w := c! ")") (tsymP (by decide)) (by decide +kernel) ?_
  refine elemT (w := c! ":") (tsymP (by decide)) (by decide +kernel) ?_
  refine elemT (w := c! "?") (levelP (by decide)) (by decide +kernel) ?_
  refine elemT (w := c! ";") (tsymP (by decide)) (by decide +kernel) ?_
  refine .sep (by decide) (by intro _; decide) (elemT (w := c! "endtable") ⟨rfl, rfl⟩ (by decide +kernel) (blank ?_))
  exact elemB (w := c! "end_q") (nameP (by decide +kernel)) (by decide +kernel) .nil

example : lex 8 exSrc = Option.some (exElems.map SvLex.tokenOf) := C112_elements_partial .sv2017 exSrc exElems exSrc_divided
example (ts : List (LTy × Str)) (h : Divided .supported .sv2017 false exSrc ts) : ts = exElems := C112_one_division .sv2017 exSrc ts exElems h exSrc_divided

/-- C112 is violated for `edge` directly in front of a bracket: `edge[01]` is one token. -/
theorem C112_violated_edge : Divided .none .sv2017 false (c! "edge[01]") [(.kw (c! "edge"), c! "edge"), (.sym (c! "["), c! "["), (.UNSIGNED_NUMBER, c! "01"),
      (.sym (c! "]"), c! "]")] ∧
    lex 8 (c! "edge[01]") = Option.some [⟨.EDGE_CONTROL_SPECIFIER, c! "edge[01]"⟩] := by
  refine ⟨?_, by kernel_rfl⟩
  refine elemN (w := c! "edge") (kwP (by decide +kernel)) (by decide +kernel) ?_
  refine elemN (w := c! "[") (symP (by decide +kernel)) (by decide +kernel) ?_
  refine elemN (w := c! "01") (show figures digit _ = true by decide) (by decide +kernel) ?_
  exact elemN (w := c! "]") (symP (by decide +kernel)) (by decide +kernel) .nil

/-- C112 is violated for escaped identifiers at the end of the text: the backslash and the name are two tokens. -/
theorem C112_violated_escaped_end : Divided .none .sv2017 false (c! "\\abc") [(.ESCAPED_IDENTIFIER, c! "\\abc")] ∧
    lex 8 (c! "\\abc") = Option.some [⟨.sym ['\\'], ['\\']⟩, ⟨.C_IDENTIFIER, c! "abc"⟩] :=
  ⟨.escEnd (by decide) trivial, by kernel_rfl⟩

/-- C112 is violated for the old versions: operators of SystemVerilog are tokens there too, `++b` is `++` and a name instead of two signs and
a name in Verilog-2001. -/
theorem C112_violated_operator : Divided .none .v2001 false (c! "++b") [(.sym (c! "+"), c! "+"), (.sym (c! "+"), c! "+"), (.C_IDENTIFIER, c! "b")] ∧
    lex Version.v2001.code (c! "++b") = Option.some [⟨.sym (c! "++"), c! "++"⟩, ⟨.C_IDENTIFIER, c! "b"⟩] := by
  refine ⟨?_, by kernel_rfl⟩
  refine elemN (w := c! "+") (symP (by decide +kernel)) (by decide +kernel) ?_
  refine elemN (w := c! "+") (symP (by decide +kernel)) (by decide +kernel) ?_
  exact elemN (w := c! "b") (nameP (by decide +kernel)) (by decide +kernel) .nil

/-- C112 is violated for form feeds in tables of primitives: they are lexical errors there, and only there. -/
theorem C112_violated_form_feed : Divided .none .sv2017 false (c! "table\x0c" ++ c! "endtable") [(.kw (c! "table"), c! "table"), (.kw (c! "endtable"), c! "endtable")] ∧
    lex 8 (c! "table\x0c" ++ c! "endtable") = Option.none ∧ lex 8 ['\x0c'] = Option.some [] := by
  refine ⟨?_, by kernel_rfl, by kernel_rfl⟩
  refine elemN (w := c! "table") (kwP (by decide +kernel)) (by decide +kernel) (.sep (by decide) trivial ?_)
  exact .elem (w := c! "endtable") (show InTable (.kw (c! "endtable")) (c! "endtable") from ⟨rfl, rfl⟩) (apart_T (by decide +kernel)) trivial .nil

/-- C112 is violated for strings with other escape sequences: `"\c"` is a lexical error. -/
theorem C112_violated_escape : Divided .none .sv2017 false (c! "\"\\c\"") [(.STRING_LITERAL, c! "\"\\c\"")] ∧ lex 8 (c! "\"\\c\"") = Option.none := by
  refine ⟨?_, by kernel_rfl⟩
  exact elemN (w := c! "\"\\c\"") ⟨c! "\\c", rfl, by decide⟩ (by decide +kernel) .nil

/-- C112 is violated for white space behind an apostrophe: `4' h1` is one number, the LRM does not allow white space between the apostrophe and
the base. -/
theorem C112_violated_base : Divided .none .sv2017 false (c! "4' h1") [(.UNSIGNED_NUMBER, c! "4"), (.sym (c! "'"), c! "'"), (.C_IDENTIFIER, c! "h1")] ∧
    lex 8 (c! "4' h1") = Option.some [⟨.BASED_NUMBER_WITH_SIZE, c! "4' h1"⟩] := by
  refine ⟨?_, by kernel_rfl⟩
  refine elemN (w := c! "4") (show figures digit _ = true by decide) (by decide +kernel) ?_
  refine elemN (w := c! "'") (symP (by decide +kernel)) (by decide +kernel) (.sep (by decide) trivial ?_)
  exact elemN (w := c! "h1") (nameP (by decide +kernel)) (by decide +kernel) .nil

/-- C113: white space, comments and line ends between the elements of a text make no difference. Missing as in C112. -/
theorem C113_layout_partial (v : Version) (s s' : Str) (ts : List (LTy × Str)) (h : Divided .supported v false s ts) (h' : Divided .supported v false s' ts) :
    lex v.code s = lex v.code s' ∧ (lex v.code s).isSome = true := by
  rw [C112_elements_partial v s ts h, C112_elements_partial v s' ts h']
  exact ⟨rfl, rfl⟩

example (s : Str) (h : Divided .supported .sv2017 false s exElems) : lex 8 s = lex 8 exSrc := (C113_layout_partial .sv2017 s exSrc exElems h exSrc_divided).1

theorem ascii_ident {c : Char} (h : SvLex.identChar c = true) : c.toNat < 128 := by
  simp only [SvLex.identChar, letter, digit, Bool.or_eq_true, Bool.and_eq_true, decide_eq_true_eq, beq_iff_eq, Char.le_def, UInt32.le_iff_toNat_le] at h
  have e : c.val.toNat = c.toNat := rfl
  have e1 : 'z'.val.toNat = 122 := rfl
  have e2 : 'Z'.val.toNat = 90 := rfl
  have e3 : '9'.val.toNat = 57 := rfl
  rcases h with ((((_ | _) | _) | rfl) | rfl)
  · omega
  · omega
  · omega
  · decide
  · decide
theorem bytes_ascii {w : Str} (h : ∀ c ∈ w, c.toNat < 128) : Lrm.bytes w = w := by
  rw [← Vhdl.utf8_bytes, Vhdl.utf8]
  induction w with
  | nil => rfl
  | cons c w ih =>
    rw [List.flatMap_cons, ih fun d hd => h d (List.mem_cons_of_mem _ hd)]
    have hc : c.toNat < 128 := h c List.mem_cons_self
    have e : String.utf8EncodeChar c = [UInt8.ofNat c.toNat] := by
      have h : c.val.toNat ≤ 0x7f := by have : c.val.toNat = c.toNat := rfl; omega
      simp only [String.utf8EncodeChar, h, if_true]
      rfl
    rw [e]
    simp [Nat.mod_eq_of_lt (show c.toNat < 256 by omega), Char.ofNat_toNat]

/-- C114 (words of `disagree` left out): a word is a keyword in a version if the LRM reserves it there or the syntax mentions it, and a
name otherwise. Missing: see the violations below. -/
theorem C114_keywords_partial (v : Version) (w : Str) (h : SvLex.Ident w) (hd : w ∉ disagree v) :
    lex v.code w = Option.some [⟨if w ∈ reserved v ∨ w ∈ special then .kw w else if '$' ∈ w then .SIMPLE_IDENTIFIER else .C_IDENTIFIER, w⟩] := by
  have hp : Plain v (if w ∈ reserved v ∨ w ∈ special then .kw w else if '$' ∈ w then .SIMPLE_IDENTIFIER else .C_IDENTIFIER) w := by
    split
    · next hk => exact ⟨rfl, hk⟩
    · next hk =>
      rw [not_or] at hk
      split
      · next h' => exact ⟨h, h', hk⟩
      · next h' => exact ⟨h, h', hk⟩
  have hb : Lrm.bytes w = w := by
    obtain ⟨c, s, rfl, h1, h2⟩ := h
    refine bytes_ascii fun d hd => ?_
    rcases List.mem_cons.1 hd with rfl | hd
    · exact ascii_ident (by simp only [SvLex.identStart, SvLex.identChar, Bool.or_eq_true] at h1 ⊢; tauto)
    · exact ascii_ident (List.all_eq_true.1 h2 d hd)
  have hns : ∀ s, (if w ∈ reserved v ∨ w ∈ special then LTy.kw w else if '$' ∈ w then .SIMPLE_IDENTIFIER else .C_IDENTIFIER) ≠ .sym s := by
    intro s; split_ifs <;> simp
  have hD : Divided .supported v false (w ++ []) [(if w ∈ reserved v ∨ w ∈ special then .kw w else if '$' ∈ w then .SIMPLE_IDENTIFIER else .C_IDENTIFIER, w)] := by
    refine .elem hp ?_ ?_ .nil
    · obtain ⟨c, s, rfl, h1, -⟩ := h
      have hc : c ≠ '/' := by rintro rfl; revert h1; decide
      refine ⟨fun t u _ hu => by simpa using hu.length_le, fun e => hc ?_, fun e => hc ?_⟩
      · exact (List.cons_prefix_cons.1 e).1.symm
      · exact (List.cons_prefix_cons.1 e).1.symm
    · intro _
      refine ⟨fun e => ?_, fun e => absurd e (hns _), fun e => ?_, fun _ c hc => (by cases hc), hd, fun d _ e => absurd e (hns _)⟩
      · split_ifs at e
      · split_ifs at e
  have := C112_elements_partial v _ _ hD
  rw [List.append_nil] at this
  rw [this]
  simp only [List.map_cons, List.map_nil, SvLex.tokenOf, hb]

theorem ident_of {w : Str} (h : identB w = true) : SvLex.Ident w := ident_iff.2 h

example : lex Version.v2005.code (c! "logic") = Option.some [⟨.C_IDENTIFIER, c! "logic"⟩] ∧ lex Version.sv2005.code (c! "logic") = Option.some [⟨.kw (c! "logic"), c! "logic"⟩] ∧
    lex Version.v1995.code (c! "a$b") = Option.some [⟨.SIMPLE_IDENTIFIER, c! "a$b"⟩] := by
  refine ⟨?_, ?_, ?_⟩
  · rw [C114_keywords_partial .v2005 _ (ident_of (by decide)) (by decide), if_neg (by decide +kernel), if_neg (by decide)]
  · rw [C114_keywords_partial .sv2005 _ (ident_of (by decide)) (by decide), if_pos (by decide +kernel)]
  · rw [C114_keywords_partial .v1995 _ (ident_of (by decide)) (by decide), if_neg (by decide +kernel), if_pos (by decide)]

/-- C114 is violated: `incdir`, `include` and `library` are reserved in Verilog-2001 and Verilog-2005 but read as names. -/
theorem C114_violated_library (v : Version) (hv : v = .v2001 ∨ v = .v2005) (w : Str) (hw : w ∈ [c! "incdir", c! "include", c! "library"]) :
    w ∈ reserved v ∧ lex v.code w = Option.some [⟨.C_IDENTIFIER, w⟩] := by
  simp only [List.mem_cons, List.not_mem_nil, or_false] at hw
  rcases hv with rfl | rfl <;> rcases hw with rfl | rfl | rfl <;> exact ⟨by decide +kernel, by kernel_rfl⟩

/-- C114 is violated: the words for configurations are no names in Verilog-2001 without configurations, although this version does not reserve
them. -/
theorem C114_violated_config (w : Str) (hw : w ∈ [c! "cell", c! "config", c! "design", c! "endconfig", c! "instance", c! "liblist", c! "use"]) :
    w ∉ reserved .v2001noconfig ∧ w ∉ special ∧ lex Version.v2001noconfig.code w = Option.some [⟨.kw w, w⟩] := by
  simp only [List.mem_cons, List.not_mem_nil, or_false] at hw
  rcases hw with rfl | rfl | rfl | rfl | rfl | rfl | rfl <;> exact ⟨by decide +kernel, by decide +kernel, by kernel_rfl⟩

/-- C115: in a text that is accepted nothing but white space and comments is left out, and every token is a lexical element of its type, or
one of the deviations. Missing: the deviations (`Deviation`): numbers with white space behind the apostrophe, `edge[..]` as one token, a lone
backslash, symbols of later versions and the words of C114; nothing is said of texts that are not accepted. -/
theorem C115_tokens_partial (v : Version) (s : Str) (toks : List LTok) (h : lex v.code s = Option.some toks) :
    ∃ ts, Covered v false s ts ∧ toks = ts.map SvLex.tokenOf :=
  lex_covered h

example : ∃ ts, Covered .sv2017 false exSrc ts ∧ exElems.map SvLex.tokenOf = ts.map SvLex.tokenOf :=
  C115_tokens_partial .sv2017 exSrc _ (C112_elements_partial .sv2017 exSrc exElems exSrc_divided)

/-- C115 is violated: a lone backslash is a token although no lexical element is a backslash without a name and white space, and
`4 's h1` is accepted as two numbers. -/
theorem C115_violated_backslash : lex 8 ['\\'] = Option.some [⟨.sym ['\\'], ['\\']⟩] ∧ (∀ v t, ¬ Plain v t ['\\']) ∧
    lex 8 (c! "4 's h1") = Option.some [⟨.UNSIGNED_NUMBER, c! "4"⟩, ⟨.ANY_BASED_NUMBER, c! "'s h1"⟩] ∧ (∀ v t, ¬ Plain v t (c! "'s h1")) := by
  refine ⟨by kernel_rfl, fun v t h => ?_, by kernel_rfl, fun v t h => ?_⟩
  · have := plain_B h
    revert this; cases v <;> decide +kernel
  · have := plain_B h
    revert this; cases v <;> decide +kernel

theorem lookup_text {f : ST → Option Str} {l : List (Str × ST)} (h : ∀ p ∈ l, f p.2 = Option.some p.1) {s : Str} {y : ST} (e : l.lookup s = Option.some y) :
    f y = Option.some s := by
  induction l with
  | nil => cases e
  | cons p l ih =>
    rw [List.lookup_cons] at e
    split at e
    · next hs =>
      cases e; rw [beq_iff_eq] at hs; subst hs
      exact h p List.mem_cons_self
    · exact ih (fun q hq => h q (List.mem_cons_of_mem _ hq)) e
theorem seen_text {f : ST → Option Str} {l : List (Str × ST)} {s : Str} {y : ST} (hl : ∀ p ∈ l, f p.2 = Option.some p.1)
    (hf : ∀ y s, f y = Option.some s → l.lookup s = Option.some y) (h : f y = Option.some s ∨ (y = .OTHER ∧ ∀ z, f z ≠ Option.some s)) :
    y = (l.lookup s).getD .OTHER := by
  rcases h with h | ⟨rfl, h⟩
  · rw [hf y s h]; rfl
  · cases e : l.lookup s with
    | none => rfl
    | some z => exact absurd (lookup_text hl e) (h z)
theorem kwText_lookup (y : ST) (s : Str) (h : kwText y = Option.some s) : kwST.lookup s = Option.some y := by
  cases y <;> cases h <;> decide +kernel
theorem symText_lookup (y : ST) (s : Str) (h : symText y = Option.some s) : symST.lookup s = Option.some y := by
  cases y <;> cases h <;> decide +kernel
theorem seen_tok {x : LTy × Str} {t : STok} (h : SeenAs x t) : (SvLex.tokenOf x).tok = t := by
  obtain ⟨y, u⟩ := t
  obtain ⟨k, z⟩ := x
  obtain ⟨h1, h2⟩ := h
  have e : k.st = y := by
    cases k with
    | kw s => exact (seen_text (by decide +kernel) kwText_lookup h2).symm
    | sym s => exact (seen_text (by decide +kernel) symText_lookup h2).symm
    | _ => exact (Eq.symm h2)
  subst e
  exact congrArg (STok.mk k.st) h1.symm
theorem seen_all {ts : List (LTy × Str)} {w : List STok} (h : List.Forall₂ SeenAs ts w) : ts.map (LTok.tok ∘ SvLex.tokenOf) = w := by
  induction h with
  | nil => rfl
  | cons h _ ih => rw [List.map_cons, ih]; exact congrArg (· :: _) (seen_tok h)

/-- C116 (supported fragment): the text of an expression, with any layout, becomes an AST with the meaning the LRM gives to the text: from
characters to the AST. Missing: as in C109 and C112. -/
theorem C116_source_meaning_partial {V : Type} (A : Spec.Sv.Alg V) (leaf : Expr → V) (hA : Agrees A leaf) (B : Rules) (v : Version)
    (s : Str) (ts rest : List (LTy × Str)) (hd : Divided .supported v false s (ts ++ rest)) (e : Spec.SvLrm.SExp) (w r : List STok)
    (hw : List.Forall₂ SeenAs ts w) (hr : List.Forall₂ SeenAs rest r)
    (he : e.Toks w) (hok : e.Ok) (hg : ∀ y s, r = y :: s → y.ty ∉ Spec.SvLrm.goesOn) (follow : List STok → Bool) (hf : follow r = true) :
    ∃ toks t ast, lex v.code s = Option.some toks ∧ parseExpression B follow (toks.map LTok.tok) = Option.some (t, r) ∧
      visitExp t = .ok ast ∧ Spec.Sv.astEval A leaf ast = Option.some (e.eval A) := by
  obtain ⟨t, h1, -, h2⟩ := C109_text_meaning_partial A leaf hA B e _ he r hg follow hf
  obtain ⟨ast, h3, h4⟩ := h2 hok
  refine ⟨_, t, ast, C112_elements_partial v s _ hd, ?_, h3, h4⟩
  rw [List.map_map, List.map_append, seen_all hw, seen_all hr]; exact h1

/-- `a+ b*3 ?~c/* no */:d;` -/
def exSum : List (LTy × Str) := [(.C_IDENTIFIER, c! "a"), (.sym (c! "+"), c! "+"), (.C_IDENTIFIER, c! "b"), (.sym (c! "*"), c! "*"), (.UNSIGNED_NUMBER, c! "3"),
  (.sym (c! "?"), c! "?"), (.sym (c! "~"), c! "~"), (.C_IDENTIFIER, c! "c"), (.sym (c! ":"), c! ":"), (.C_IDENTIFIER, c! "d")]
def exSumReading : Spec.SvLrm.SExp := .cond (.bin (.prim (exNm (c! "a"))) .add (.bin (.prim (exNm (c! "b"))) .mul (exNum (c! "3"))))
  (.un .neg (exNm (c! "c"))) (.prim (exNm (c! "d")))

def exSumToks : List STok := [idTok (c! "a"), ⟨.PLUS, c! "+"⟩, idTok (c! "b"), ⟨.MUL, c! "*"⟩, numTok (c! "3"), ⟨.QUESTIONMARK, c! "?"⟩, ⟨.NEG, c! "~"⟩, idTok (c! "c"),
  ⟨.COLON, c! ":"⟩, idTok (c! "d")]

theorem exSum_divided : Divided .supported .v2001 false (c! "a+ b*3 ?~c/* no */:d;") (exSum ++ [(.sym (c! ";"), c! ";")]) := by
  refine elemB (w := c! "a") (nameP (by decide +kernel)) (by decide +kernel) ?_
  refine elemB (w := c! "+") (symP (by decide +kernel)) (by decide +kernel) (blank ?_)
  refine elemB (w := c! "b") (nameP (by decide +kernel)) (by decide +kernel) ?_
  refine elemB (w := c! "*") (symP (by decide +kernel)) (by decide +kernel) ?_
  refine elemB (w := c! "3") (show figures digit _ = true by decide) (by decide +kernel) (blank ?_)
  refine elemB (w := c! "?") (symP (by decide +kernel)) (by decide +kernel) ?_
  refine elemB (w := c! "~") (symP (by decide +kernel)) (by decide +kernel) ?_
  refine elemB (w := c! "c") (nameP (by decide +kernel)) (by decide +kernel) (.block (w := c! " no ") (by decide) ?_)
  refine elemB (w := c! ":") (symP (by decide +kernel)) (by decide +kernel) ?_
  refine elemB (w := c! "d") (nameP (by decide +kernel)) (by decide +kernel) ?_
  exact elemB (w := c! ";") (symP (by decide +kernel)) (by decide +kernel) .nil

example : ∃ toks t ast, lex Version.v2001.code (c! "a+ b*3 ?~c/* no */:d;") = Option.some toks ∧
    parseExpression exRules exFollow (toks.map LTok.tok) = Option.some (t, [⟨.SEMI, c! ";"⟩]) ∧ visitExp t = .ok ast ∧
    Spec.Sv.astEval Term.alg Term.tok ast = Option.some (exSumReading.eval Term.alg) := by
  refine C116_source_meaning_partial Term.alg Term.tok Term.agrees exRules .v2001 _ exSum _ exSum_divided exSumReading exSumToks _ ?_
    (.cons ⟨rfl, .inl rfl⟩ .nil) ?_ ?_ (by rintro y s e; cases e; decide) exFollow rfl
  · exact .cons ⟨rfl, rfl⟩ (.cons ⟨rfl, .inl rfl⟩ (.cons ⟨rfl, rfl⟩ (.cons ⟨rfl, .inl rfl⟩ (.cons ⟨rfl, rfl⟩ (.cons ⟨rfl, .inl rfl⟩ (.cons ⟨rfl, .inl rfl⟩
      (.cons ⟨rfl, rfl⟩ (.cons ⟨rfl, .inl rfl⟩ (.cons ⟨rfl, rfl⟩ .nil)))))))))
  · rw [exSumReading, Spec.SvLrm.SExp.Toks]
    refine ⟨by decide, by decide, [_, _, _, _, _], _, rfl, ?_, [_], _, rfl, ⟨_, rfl, rfl⟩, [_, _], _, rfl, ?_, [_], _, rfl, ⟨_, rfl, rfl⟩, exNmE_toks _⟩
    · rw [Spec.SvLrm.SExp.Toks]
      refine ⟨⟨by decide, by decide⟩, [_], _, rfl, exNmE_toks _, [_], _, rfl, ⟨_, rfl, rfl⟩, ?_⟩
      rw [Spec.SvLrm.SExp.Toks]
      exact ⟨⟨by decide, by decide⟩, [_], _, rfl, exNmE_toks _, [_], _, rfl, ⟨_, rfl, rfl⟩, exNum_toks _⟩
    · rw [Spec.SvLrm.SExp.Toks]
      exact ⟨[_], [_], rfl, ⟨_, rfl, rfl⟩, exNm_toks _⟩
  · have h1 : ∀ s, isKw s = false → Spec.SvLrm.SPrim.Ok (exNm s) := fun s h => by
      simp only [exNm, Spec.SvLrm.SPrim.Ok]
      exact ⟨⟨s, by simp [identStr], h⟩, by simp⟩
    simp only [exSumReading, exNum, Spec.SvLrm.SExp.Ok, Spec.SvLrm.SPrim.Ok]
    refine ⟨⟨h1 _ (by decide +kernel), ⟨h1 _ (by decide +kernel), ⟨⟨_, rfl⟩, by simp⟩, by decide⟩, by decide⟩, h1 _ (by decide +kernel), h1 _ (by decide +kernel)⟩

end Verif.Sv
