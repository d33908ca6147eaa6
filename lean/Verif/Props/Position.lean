import Verif.PositionLemmas
import Verif.Props.PpText
import Verif.KernelRfl
/-!
# Properties of the positions of the objects (C117)
-/
namespace Verif.Position
open Verif.Antlr Verif.Spec Verif.Spec.Place

/-- C117 (VHDL): the lexer gives the tokens of a text their places in the order of the text, and the position of an object made for a rule which has read
the tokens from `x` to `y` starts with the line and the column of the first character of `x` and ends with those of the last character of `y`.
Missing: texts of 2⁶⁴ characters and more; objects made for a single token and for a rule without tokens, see the violations below. -/
theorem C117_vhdl_positions_partial (s : Str) (hs : s.length < 2 ^ 64) (toks : List (Vhdl.VTok × TokPos)) (h : vhdlTokens s = some toks) :
    Vhdl.lex s = some (toks.map Prod.fst) ∧ (toks.Pairwise fun x y => x.2.stop < y.2.start) ∧
    ∀ x ∈ toks, ∀ y ∈ toks, ∃ cp i n j m, updateCodePosition (some (.rule x.2 y.2)) = some cp ∧
      At s cp.startLine cp.startCol i ∧ i + n < s.length ∧ x.1.text = Lrm.bytes (slice s i (n + 1)) ∧
      At s cp.stopLine cp.stopCol (j + m) ∧ y.1.text = Lrm.bytes (slice s j (m + 1)) ∧
      x.2.start = i ∧ x.2.stop = i + n ∧ y.2.start = j ∧ y.2.stop = j + m := by
  have key := scan_placed (T := fun (t : Vhdl.VTok) w => t.text = Lrm.bytes w ∧ '\n' ∉ w) (pre := []) (fun _ _ _ _ _ h => ⟨(vhdl_next h).1, (vhdl_next h).2.1, (vhdl_next h).2.2⟩) h
  refine ⟨by rw [← vhdl_fst, h]; rfl, key.2, fun x hx y hy => ?_⟩
  obtain ⟨i, n, j, m, h1, h2, h3, h4, h5, h6⟩ := from_placed hs (key.1 x hx).1 (key.1 y hy).1 (fun w hw => hw.2)
  exact ⟨_, i, n, j, m, rfl, h1, h2, h3.1, h4, h5.1, h6⟩

/-- C117 (SystemVerilog): the same for the text the parser gets from the preprocessor, in every version of the language. Missing: objects whose last
token has a line feed in it, the text in front of the preprocessor, and what is missing for VHDL; see the violations below. -/
theorem C117_sv_positions_partial (v : Nat) (s : Str) (hs : s.length < 2 ^ 64) (toks : List (Sv.LTok × TokPos)) (h : svTokens v s = some toks) :
    Sv.lex v s = some (toks.map Prod.fst) ∧ (toks.Pairwise fun x y => x.2.stop < y.2.start) ∧
    ∀ x ∈ toks, ∀ y ∈ toks, '\n' ∉ y.1.text → ∃ cp i n j m, updateCodePosition (some (.rule x.2 y.2)) = some cp ∧
      At s cp.startLine cp.startCol i ∧ i + n < s.length ∧ x.1.text = Lrm.bytes (slice s i (n + 1)) ∧
      At s cp.stopLine cp.stopCol (j + m) ∧ y.1.text = Lrm.bytes (slice s j (m + 1)) ∧
      x.2.start = i ∧ x.2.stop = i + n ∧ y.2.start = j ∧ y.2.stop = j + m := by
  have key := scan_placed (T := fun (t : Sv.LTok) w => t.text = Lrm.bytes w) (pre := []) (fun _ _ _ _ _ h => sv_next h) h
  refine ⟨by rw [← sv_fst, h]; rfl, key.2, fun x hx y hy hn => ?_⟩
  obtain ⟨i, n, j, m, h1, h2, h3, h4, h5, h6⟩ := from_placed hs (key.1 x hx).1 (key.1 y hy).1 (fun w hw hm => hn (by rw [hw, ← Vhdl.utf8_bytes]; exact List.mem_flatMap.2 ⟨_, hm, by decide⟩))
  exact ⟨_, i, n, j, m, rfl, h1, h2, h3, h4, h5, h6⟩

/-- C117: a line and a column belong to at most one character of a text. -/
theorem C117_one_place (s : Str) (l c k k' : Nat) (h : At s l c k) (h' : At s l c k') : k = k' := at_fun h h'

example : At (c! "ab\ncd") 2 2 4 := ⟨by decide, c! "ab\n", c! "c", rfl, .inr ⟨c! "ab", rfl⟩, by decide, rfl, rfl⟩

/-- `a <= b;` in the second line: the position of the assignment. -/
example : (vhdlTokens (c! "-- x\n  a <= b;")).map (List.map Prod.snd) = some [⟨2, 2, 7, 7⟩, ⟨2, 4, 9, 10⟩, ⟨2, 7, 12, 12⟩, ⟨2, 8, 13, 13⟩] ∧
    fromElem ⟨2, 2, 7, 7⟩ ⟨2, 8, 13, 13⟩ = { startLine := 2, stopLine := 2, startCol := 3, stopCol := 9 } := by
  exact ⟨by kernel_rfl, by kernel_rfl⟩
example : (svTokens 8 (c! "/*\n*/ assign\ty = \"s\\n\";")).map (List.map Prod.snd) = some [⟨2, 3, 6, 11⟩, ⟨2, 10, 13, 13⟩, ⟨2, 12, 15, 15⟩, ⟨2, 14, 17, 21⟩, ⟨2, 19, 22, 22⟩] ∧
    fromElem ⟨2, 3, 6, 11⟩ ⟨2, 14, 17, 21⟩ = { startLine := 2, stopLine := 2, startCol := 4, stopCol := 19 } := by
  exact ⟨by kernel_rfl, by kernel_rfl⟩

/-- C117 is violated: the end of an object whose last token has a line feed in it is not a place of the text: a string
over two lines ends in its first line, in a column which this line does not have. -/
theorem C117_violated_multiline :
    (svTokens 8 (c! "y=\"a\\\nbcd\";")).map (List.map Prod.snd) = some [⟨1, 0, 0, 0⟩, ⟨1, 1, 1, 1⟩, ⟨1, 2, 2, 9⟩, ⟨2, 4, 10, 10⟩] ∧
    updateCodePosition (some (.rule ⟨1, 2, 2, 9⟩ ⟨1, 2, 2, 9⟩)) = some { startLine := 1, stopLine := 1, startCol := 3, stopCol := 10 } ∧
    ∀ k, ¬ At (c! "y=\"a\\\nbcd\";") 1 10 k := by
  refine ⟨by kernel_rfl, by kernel_rfl, ?_⟩
  rintro k ⟨hk, f, l, e, hf, hl, h1, h2⟩
  have hf0 : f = [] := by
    rcases hf with rfl | ⟨q, rfl⟩
    · rfl
    · simp at h1
  subst hf0
  have hl9 : l.length = 9 := by omega
  have hk9 : k = 9 := by
    have := congrArg List.length e
    rw [List.length_take, List.nil_append, hl9] at this
    omega
  subst hk9
  rw [List.nil_append] at e
  rw [← e] at hl
  exact hl (by decide)

/-- C117 is violated: an object made for a single token has the position of the whole rule the token is part of: the name `NEXT` which is called for a next
statement (src/vhdlConvertor/statementParser.cpp 142) has the position of the statement. -/
theorem C117_violated_terminal : (vhdlTokens (c! "next l;")).map (List.map Prod.snd) = some [⟨1, 0, 0, 3⟩, ⟨1, 5, 5, 5⟩, ⟨1, 6, 6, 6⟩] ∧
    updateCodePosition (some (.terminal (.rule ⟨1, 0, 0, 3⟩ ⟨1, 6, 6, 6⟩))) = some { startLine := 1, stopLine := 1, startCol := 1, stopCol := 7 } ∧
    updateCodePosition (some (.rule ⟨1, 0, 0, 3⟩ ⟨1, 0, 0, 3⟩)) = some { startLine := 1, stopLine := 1, startCol := 1, stopCol := 4 } :=
  ⟨by kernel_rfl, by kernel_rfl, by kernel_rfl⟩

/-- C117 is violated: an object made for a rule which has read no token has a position which ends in front of its start: the block of the empty branch of an
if statement (src/vhdlConvertor/statementParser.cpp 35, `sequence_of_statements`) starts with the word `end` behind it and ends with the word `then` in front of it. -/
theorem C117_violated_empty : (vhdlTokens (c! "if c then\nend if;")).map (List.map Prod.snd) =
      some [⟨1, 0, 0, 1⟩, ⟨1, 3, 3, 3⟩, ⟨1, 5, 5, 8⟩, ⟨2, 0, 10, 12⟩, ⟨2, 4, 14, 15⟩, ⟨2, 6, 16, 16⟩] ∧
    updateCodePosition (some (.rule ⟨2, 0, 10, 12⟩ ⟨1, 5, 5, 8⟩)) = some { startLine := 2, stopLine := 1, startCol := 1, stopCol := 9 } :=
  ⟨by kernel_rfl, by kernel_rfl⟩

/-- C117 is violated: the positions of SystemVerilog objects are places of the text behind the preprocessor, not of the source (src/hdlConvertor.cpp 54-60; the
map of the lines is used for error messages only): the name in line 4 of the source gets its position in line 5, for the macro is replaced by two lines. -/
theorem C117_violated_preprocessor : ppOut 8 (c! "`define A m\\\n n\n`A\nq;") = some (c! "\n\nm\n n\nq;") ∧
    At (c! "`define A m\\\n n\n`A\nq;") 4 1 19 ∧ slice (c! "`define A m\\\n n\n`A\nq;") 19 1 = c! "q" ∧
    svTokens 8 (c! "\n\nm\n n\nq;") = some [(⟨.C_IDENTIFIER, c! "m"⟩, ⟨3, 0, 2, 2⟩), (⟨.C_IDENTIFIER, c! "n"⟩, ⟨4, 1, 5, 5⟩),
      (⟨.C_IDENTIFIER, c! "q"⟩, ⟨5, 0, 7, 7⟩), (⟨.sym (c! ";"), c! ";"⟩, ⟨5, 1, 8, 8⟩)] :=
  ⟨by decide +kernel, ⟨by decide, c! "`define A m\\\n n\n`A\n", [], rfl, .inr ⟨c! "`define A m\\\n n\n`A", rfl⟩, by decide, rfl, rfl⟩, rfl, by kernel_rfl⟩

end Verif.Position
