import Verif.VhdlLexMain
import Verif.Props.VhdlText
/-!
# Properties of the way from VHDL texts to tokens and to the AST (C105-C108)
-/
namespace Verif.Vhdl
open Verif.Antlr Verif.Spec Verif.Spec.Lrm

/-- C105 (supported fragment): a text which is divided into lexical elements by the rules of the LRM is read as these elements, each with its
type and its text, and without a lexical error. Missing: texts outside of `Limits.supported`, see the violations below. -/
theorem C105_elements_partial (s : Str) (ts : List (VT × Str)) (h : Divided .supported none s ts) : lex s = some (ts.map tokenOf) :=
  lex_divided h

/-- C105: a text of the supported fragment is divided in only one way. -/
theorem C105_one_division (s : Str) (ts ts' : List (VT × Str)) (h : Divided .supported none s ts) (h' : Divided .supported none s ts') : ts = ts' := by
  have e := lex_divided h
  rw [lex_divided h', Option.some.injEq] at e
  exact (List.map_injective_iff.2 (fun _ _ => tokenOf_inj) e).symm

theorem notHead_nil (p : Char → Bool) : NotHead p [] := by simp [NotHead]
theorem notHead {p : Char → Bool} {c : Char} {s : Str} (h : p c = false) : NotHead p (c :: s) := by simpa [NotHead] using h

/-- ``Sig <= x'Length+16#fF.1#e-1 -- it's`` (CR LF) ``&sb"0_1"&"a""b"; /* ** */ type'('y')`` -/
def exSrc : Str := c! "Sig <= x'Length+16#fF.1#e-1 -- it's\r\n&sb\"0_1\"&\"a\"\"b\"; /* ** */ type_1'('y')"
def exElems : List (VT × Str) := [(.BASIC_IDENTIFIER, c! "Sig"), (.CONASGN, c! "<="), (.BASIC_IDENTIFIER, c! "x"), (.APOSTROPHE, c! "'"),
  (.BASIC_IDENTIFIER, c! "Length"), (.PLUS, c! "+"), (.BASED_LITERAL, c! "16#fF.1#e-1"), (.AMPERSAND, c! "&"), (.BIT_STRING_LITERAL, c! "sb\"0_1\""),
  (.AMPERSAND, c! "&"), (.STRING_LITERAL, c! "\"a\"\"b\""), (.SEMI, c! ";"), (.BASIC_IDENTIFIER, c! "type_1"), (.APOSTROPHE, c! "'"),
  (.LPAREN, c! "("), (.CHARACTER_LITERAL, c! "'y'"), (.RPAREN, c! ")")]

/-- No restriction applies. -/
theorem lim {t : VT} {w s : Str} (h1 : t ≠ .EXTENDED_IDENTIFIER) (h2 : t ≠ .CHARACTER_LITERAL) (h3 : t ≠ .APOSTROPHE)
    (h4 : ∀ c ∈ w, c.toNat < 128 ∨ c = 'Å') : Limits.supported.elem t w s :=
  ⟨fun _ => h4, fun e => absurd e h1, fun e => absurd e h2, fun e => absurd e h3⟩
theorem lim_tick {w s : Str} (h : s[1]? = some '\'' → s[0]? = some '(' ∧ s[3]? = some '\'') : Limits.supported.elem .APOSTROPHE w s :=
  ⟨by simp, by simp, by simp, fun _ => h⟩
theorem no_tick {p : Option VT} {t : VT} (h1 : t ≠ .APOSTROPHE) (h2 : t ≠ .CHARACTER_LITERAL) : Tick p t :=
  ⟨fun e => absurd e h1, fun e => absurd e h2⟩

theorem exSrc_divided : Divided .supported none exSrc exElems := by
  have hid : ∀ {c : Char} {w s : Str}, letter c = true → groupTail (fun c => letter c || digit c) w = true → (c :: w).map Char.toLower ∉ reserved →
      (∀ d ∈ c :: w, d.toNat < 128 ∨ d = 'Å') → NotHead wordChar s → NotHead (· == '"') s → ∀ {p : Option VT} {ts : List (VT × Str)},
      Divided .supported (some .BASIC_IDENTIFIER) s ts → Divided .supported p (c :: w ++ s) ((.BASIC_IDENTIFIER, c :: w) :: ts) := by
    intro c w s h1 h2 h3 h4 h5 h6 p ts h
    exact .elem ⟨⟨c, w, rfl, h1, h2⟩, h3⟩ ⟨h5, fun _ => h6⟩ (no_tick (by decide) (by decide)) (lim (by decide) (by decide) (by decide) h4) h
  have hsp : ∀ {s : Str} {p : Option VT} {ts : List (VT × Str)}, Divided .supported p s ts → Divided .supported p (' ' :: s) ts := fun h =>
    .sep (by decide) (show ' ' ∈ _ by decide) h
  refine hid (c := 'S') (w := c! "ig") (by decide) (by decide) (by decide +kernel) (by decide) (notHead (by decide)) (notHead (by decide)) ?_
  refine hsp (.elem (w := c! "<=") (by simp only [Element]; decide) ⟨by decide, by decide, by decide⟩ (no_tick (by decide) (by decide))
    (lim (by decide) (by decide) (by decide) (by decide)) (hsp ?_))
  refine hid (c := 'x') (w := []) (by decide) (by decide) (by decide +kernel) (by decide) (notHead (by decide)) (notHead (by decide)) ?_
  refine .elem (w := c! "'") (by simp only [Element]; decide) ⟨by decide, by decide, by decide⟩
    ⟨fun _ => ⟨.BASIC_IDENTIFIER, rfl, by decide⟩, by simp⟩ (lim_tick (by decide)) ?_
  refine hid (c := 'L') (w := c! "ength") (by decide) (by decide) (by decide +kernel) (by decide) (notHead (by decide)) (notHead (by decide)) ?_
  refine .elem (w := c! "+") (by simp only [Element]; decide) ⟨by decide, by decide, by decide⟩ (no_tick (by decide) (by decide))
    (lim (by decide) (by decide) (by decide) (by decide)) ?_
  refine .elem (w := c! "16#fF.1#e-1") ⟨c! "16", c! "fF", c! ".1", c! "e-1", rfl, by decide, by decide, .inr ⟨c! "1", rfl, by decide⟩,
    .inr ⟨'e', c! "-", c! "1", rfl, .inl rfl, .inr (.inr rfl), by decide⟩⟩ (notHead (by decide)) (no_tick (by decide) (by decide))
    (lim (by decide) (by decide) (by decide) (by decide)) (hsp ?_)
  refine .line (w := c! " it's") (by decide) (by decide) (.inr (.inr ⟨_, rfl⟩)) (.sep (by decide) (show '\r' ∈ _ by decide)
    (.sep (by decide) (show '\n' ∈ _ by decide) ?_))
  refine .elem (w := c! "&") (by simp only [Element]; decide) ⟨by decide, by decide, by decide⟩ (no_tick (by decide) (by decide))
    (lim (by decide) (by decide) (by decide) (by decide)) ?_
  refine .elem (w := c! "sb\"0_1\"") ⟨[], c! "sb", c! "0_1", rfl, .inl rfl, by decide, by decide⟩ trivial (no_tick (by decide) (by decide))
    (lim (by decide) (by decide) (by decide) (by decide)) ?_
  refine .elem (w := c! "&") (by simp only [Element]; decide) ⟨by decide, by decide, by decide⟩ (no_tick (by decide) (by decide))
    (lim (by decide) (by decide) (by decide) (by decide)) ?_
  refine .elem (w := c! "\"a\"\"b\"") ⟨c! "a\"\"b", rfl, by decide⟩ (notHead (by decide)) (no_tick (by decide) (by decide))
    (lim (by decide) (by decide) (by decide) (by decide)) ?_
  refine .elem (w := c! ";") (by simp only [Element]; decide) ⟨by decide, by decide, by decide⟩ (no_tick (by decide) (by decide))
    (lim (by decide) (by decide) (by decide) (by decide)) (hsp ?_)
  refine .block (w := c! " ** ") (by decide) (hsp ?_)
  refine hid (c := 't') (w := c! "ype_1") (by decide) (by decide) (by decide +kernel) (by decide) (notHead (by decide)) (notHead (by decide)) ?_
  refine .elem (w := c! "'") (by simp only [Element]; decide) ⟨by decide, by decide, by decide⟩
    ⟨fun _ => ⟨.BASIC_IDENTIFIER, rfl, by decide⟩, by simp⟩ (lim_tick (by decide)) ?_
  refine .elem (w := c! "(") (by simp only [Element]; decide) ⟨by decide, by decide, by decide⟩ (no_tick (by decide) (by decide))
    (lim (by decide) (by decide) (by decide) (by decide)) ?_
  refine .elem (w := c! "'y'") ⟨'y', rfl, by decide⟩ trivial ⟨by simp, fun _ q hq => by cases hq; decide⟩
    ⟨by simp, by simp, fun _ h => by simp at h, by simp⟩ ?_
  refine .elem (w := c! ")") (by simp only [Element]; decide) ⟨by decide, by decide, by decide⟩ (no_tick (by decide) (by decide))
    (lim (by decide) (by decide) (by decide) (by decide)) .nil

example : lex exSrc = some (exElems.map tokenOf) := C105_elements_partial exSrc exElems exSrc_divided

/-- C105 is violated for parentheses as character literals: `'('&'('` is read as `'`, `(`, the literal `'&'`, `(`, `'`. -/
theorem C105_violated_parenthesis : Divided .none none (c! "'('&'('") [(.CHARACTER_LITERAL, c! "'('"), (.AMPERSAND, c! "&"), (.CHARACTER_LITERAL, c! "'('")] ∧
    lex (c! "'('&'('") = some [⟨.APOSTROPHE, c! "'"⟩, ⟨.LPAREN, c! "("⟩, ⟨.CHARACTER_LITERAL, c! "'&'"⟩, ⟨.LPAREN, c! "("⟩, ⟨.APOSTROPHE, c! "'"⟩] := by
  refine ⟨?_, by kernel_rfl⟩
  refine .elem (w := c! "'('") ⟨'(', rfl, by decide⟩ trivial ⟨by simp, by simp⟩ trivial ?_
  refine .elem (w := c! "&") (by simp only [Element]; decide) ⟨by decide, by decide, by decide⟩ (no_tick (by decide) (by decide)) trivial ?_
  exact .elem (w := c! "'('") ⟨'(', rfl, by decide⟩ trivial ⟨by simp, fun _ q hq => by cases hq; decide⟩ trivial .nil

theorem basic_elem {c : Char} {p : Option VT} {s : Str} {ts : List (VT × Str)} (h1 : letter c = true) (h2 : [c.toLower] ∉ reserved) (h3 : NotHead wordChar s)
    (h4 : NotHead (· == '"') s) (h : Divided .none (some .BASIC_IDENTIFIER) s ts) : Divided .none p (c :: s) ((.BASIC_IDENTIFIER, [c]) :: ts) :=
  .elem (w := [c]) ⟨⟨c, [], rfl, h1, rfl⟩, h2⟩ ⟨h3, fun _ => h4⟩ (no_tick (by decide) (by decide)) trivial h

/-- C105 is violated for attributes with a name of one letter: the attribute `c` of `a'b` is read as a name, a character literal and a
name. -/
theorem C105_violated_attribute : Divided .none none (c! "a'b'c") [(.BASIC_IDENTIFIER, c! "a"), (.APOSTROPHE, c! "'"), (.BASIC_IDENTIFIER, c! "b"),
      (.APOSTROPHE, c! "'"), (.BASIC_IDENTIFIER, c! "c")] ∧
    lex (c! "a'b'c") = some [⟨.BASIC_IDENTIFIER, c! "a"⟩, ⟨.CHARACTER_LITERAL, c! "'b'"⟩, ⟨.BASIC_IDENTIFIER, c! "c"⟩] := by
  refine ⟨?_, by kernel_rfl⟩
  refine basic_elem (by decide) (by decide +kernel) (notHead (by decide)) (notHead (by decide)) ?_
  refine .elem (w := c! "'") (by simp only [Element]; decide) ⟨by decide, by decide, by decide⟩
    ⟨fun _ => ⟨.BASIC_IDENTIFIER, rfl, by decide⟩, by simp⟩ trivial ?_
  refine basic_elem (by decide) (by decide +kernel) (notHead (by decide)) (notHead (by decide)) ?_
  refine .elem (w := c! "'") (by simp only [Element]; decide) ⟨by decide, by decide, by decide⟩
    ⟨fun _ => ⟨.BASIC_IDENTIFIER, rfl, by decide⟩, by simp⟩ trivial ?_
  exact basic_elem (by decide) (by decide +kernel) (notHead_nil _) (notHead_nil _) .nil

/-- C105 is violated for form feed, vertical tabulation and no-break space between elements: these separators of the LRM are lexical errors. -/
theorem C105_violated_separator (c : Char) (hc : c ∈ ['\x0c', '\x0b', '\u00a0']) :
    Divided .none none ['a', c, 'b'] [(.BASIC_IDENTIFIER, c! "a"), (.BASIC_IDENTIFIER, c! "b")] ∧ lex ['a', c, 'b'] = none := by
  simp only [List.mem_cons, List.not_mem_nil, or_false] at hc
  rcases hc with rfl | rfl | rfl
  all_goals
    refine ⟨?_, by kernel_rfl⟩
    refine basic_elem (by decide) (by decide +kernel) (notHead (by decide)) (notHead (by decide)) (.sep (by decide) trivial ?_)
    exact basic_elem (by decide) (by decide +kernel) (notHead_nil _) (notHead_nil _) .nil

/-- C105 is violated for the letters of ISO 8859-1 outside of ASCII: they are lexical errors in identifiers (`Å` alone is not). -/
theorem C105_violated_letter : Divided .none none ['é'] [(.BASIC_IDENTIFIER, ['é'])] ∧ lex ['é'] = none ∧
    (lex ['Å']).isSome = true := by
  refine ⟨?_, by kernel_rfl, by kernel_rfl⟩
  exact basic_elem (by decide) (by decide +kernel) (notHead_nil _) (notHead_nil _) .nil

/-- C105 is violated for comments in texts with lone carriage returns: the next line is part of the comment. -/
theorem C105_violated_line_end : Divided .none none ['-', '-', '\r', 'a'] [(.BASIC_IDENTIFIER, c! "a")] ∧ lex ['-', '-', '\r', 'a'] = some [] := by
  refine ⟨?_, by kernel_rfl⟩
  refine .line (w := []) (by simp) (by decide) trivial (.sep (by decide) trivial ?_)
  exact basic_elem (by decide) (by decide +kernel) (notHead_nil _) (notHead_nil _) .nil

/-- C105 is violated for a quotation mark in an extended identifier: `\"\` is not read as one element. -/
theorem C105_violated_extended : Divided .none none ['\\', '"', '\\'] [(.EXTENDED_IDENTIFIER, ['\\', '"', '\\'])] ∧
    lex ['\\', '"', '\\'] = some [⟨.BACKSLASH, ['\\']⟩, ⟨.DBLQUOTE, ['"']⟩, ⟨.BACKSLASH, ['\\']⟩] := by
  refine ⟨?_, by kernel_rfl⟩
  exact .elem (w := ['\\', '"', '\\']) ⟨['"'], rfl, by simp, by decide⟩ (notHead_nil _) (no_tick (by decide) (by decide)) trivial .nil

/-- C106: white space, comments and line ends between the elements of a text make no difference. -/
theorem C106_layout_partial (s s' : Str) (ts : List (VT × Str)) (h : Divided .supported none s ts) (h' : Divided .supported none s' ts) :
    lex s = lex s' ∧ (lex s).isSome = true := by
  rw [C105_elements_partial s ts h, C105_elements_partial s' ts h']
  exact ⟨rfl, rfl⟩

example (s : Str) (h : Divided .supported none s exElems) : lex s = lex exSrc := (C106_layout_partial s exSrc exElems h exSrc_divided).1

/-- C107 (characters of ISO 8859-1 but `Å`): in a text that is accepted nothing but white space and comments is left out, and every token is a
lexical element of its type. Missing: words of the property specification language are identifiers, and some stray characters are
tokens, see `C107_violated_word`; characters outside of ISO 8859-1, see `C107_violated_character`. -/
theorem C107_tokens_partial (s : Str) (hs : ∀ c ∈ s, c.toNat < 256 ∧ c ≠ 'Å') (toks : List VTok) (h : lex s = some toks) :
    ∃ ts, Covered s ts ∧ toks = ts.map tokenOf :=
  lex_covered hs h

example : ∃ ts, Covered exSrc ts ∧ exElems.map tokenOf = ts.map tokenOf :=
  C107_tokens_partial exSrc (by decide +kernel) _ (C105_elements_partial exSrc exElems exSrc_divided)

/-- C107 is violated: the reserved words of the property specification language are read as identifiers, and `10ns` is accepted although
adjacent numbers and words have to be separated. -/
theorem C107_violated_word : (∀ w ∈ psl, w ∈ reserved ∧ lex w = some [⟨.BASIC_IDENTIFIER, w⟩]) ∧
    lex (c! "10ns") = some [⟨.DECIMAL_LITERAL, c! "10"⟩, ⟨.BASIC_IDENTIFIER, c! "ns"⟩] := by
  refine ⟨fun w hw => ?_, by kernel_rfl⟩
  simp only [psl, List.mem_cons, List.not_mem_nil, or_false] at hw
  rcases hw with rfl | rfl | rfl | rfl | rfl | rfl | rfl | rfl | rfl <;> exact ⟨by decide +kernel, by kernel_rfl⟩

/-- C107 is violated: letters that are not characters of VHDL are accepted in strings, and a letter that is no digit of any base in based
literals. -/
theorem C107_violated_character : (lex ['"', 'Ж', '"']).isSome = true ∧ ¬ StringLit ['"', 'Ж', '"'] ∧
    (lex ['1', '#', 'Å', '#']).isSome = true ∧ ¬ Based ['1', '#', 'Å', '#'] := by
  refine ⟨by kernel_rfl, ?_, by kernel_rfl, ?_⟩
  · rintro ⟨v, e, h⟩
    have e1 := (List.cons.inj e).2
    have hv : v = ['Ж'] := (List.append_inj' (s₁ := v) (t₁ := ['"']) (s₂ := ['Ж']) (t₂ := ['"']) e1.symm rfl).1
    subst hv
    revert h; decide
  · rintro ⟨b, i, f, x, e, h1, h2, -, -⟩
    obtain ⟨-, -, e1⟩ := split_at (· != '#') (a := ['1']) (x := '#') (u := ['Å', '#']) (by decide) (noHash_digit h1) (by decide) (by decide) e
    obtain ⟨c, s, rfl, hc⟩ := grouped_head h2
    have := (List.cons.inj e1).1
    subst this
    revert hc; decide

/-- C108 (supported fragment): the text of an expression, with any layout, becomes an AST with the meaning the LRM gives to the text: from
characters to the AST. Missing: as in C102 and C105. -/
theorem C108_source_meaning_partial {V : Type} (A : Alg V) (leaf : Expr → V) (hA : Agrees A leaf) (hcall : ∀ f l, A.call f l = A.index f l)
    (s : Str) (ts : List (VT × Str)) (y : VT × Str) (rest : List (VT × Str)) (hd : Divided .supported none s (ts ++ y :: rest)) (e : LExpr)
    (he : e.Toks (ts.map tokenOf)) (hok : LExpr.Ok e) (hy : y.1 ∈ afterExpr) (follow : List VTok → Bool)
    (hf : follow ((y :: rest).map tokenOf) = true) (hn : ∀ z s, z.ty ∈ goesOn → follow (z :: s) = false) :
    ∃ toks t ast, lex s = some toks ∧ parseExpression follow toks = some (t, (y :: rest).map tokenOf) ∧ visitExpression t = .ok ast ∧
      astEval A leaf ast = some (e.eval A) := by
  obtain ⟨t, h1, -, h2⟩ := C102_text_meaning_partial A leaf hA hcall e _ he (tokenOf y) hy (rest.map tokenOf) follow hf hn
  obtain ⟨ast, h3, h4⟩ := h2 hok
  refine ⟨_, t, ast, C105_elements_partial s _ hd, ?_, h3, h4⟩
  rw [List.map_append]; exact h1

/-- `a+ b * C;` -/
def exSum : List (VT × Str) := [(.BASIC_IDENTIFIER, c! "a"), (.PLUS, c! "+"), (.BASIC_IDENTIFIER, c! "b"), (.MUL, c! "*"), (.BASIC_IDENTIFIER, c! "C")]
def exSumReading : LExpr := .one (.one (.one (.add (.one (exNm (c! "a"))) .plus (.mul (exNm (c! "b")) .mul (.prim (.name (.lit (.ident (c! "C")))))))))

theorem exSum_divided : Divided .supported none (c! "a+ b * C;") (exSum ++ [(.SEMI, c! ";")]) := by
  have hid : ∀ {c : Char} {s : Str} {p : Option VT} {ts : List (VT × Str)}, letter c = true → [c.toLower] ∉ reserved → c.toNat < 128 ∨ c = 'Å' →
      NotHead wordChar s → NotHead (· == '"') s → Divided .supported (some .BASIC_IDENTIFIER) s ts →
      Divided .supported p (c :: s) ((.BASIC_IDENTIFIER, [c]) :: ts) := by
    intro c s p ts h1 h2 h3 h4 h5 h
    exact .elem (w := [c]) ⟨⟨c, [], rfl, h1, rfl⟩, h2⟩ ⟨h4, fun _ => h5⟩ (no_tick (by decide) (by decide))
      (lim (by decide) (by decide) (by decide) (by simpa using h3)) h
  have hsp : ∀ {s : Str} {p : Option VT} {ts : List (VT × Str)}, Divided .supported p s ts → Divided .supported p (' ' :: s) ts := fun h =>
    .sep (by decide) (show ' ' ∈ _ by decide) h
  refine hid (by decide) (by decide +kernel) (by decide) (notHead (by decide)) (notHead (by decide)) ?_
  refine .elem (w := c! "+") (by simp only [Element]; decide) ⟨by decide, by decide, by decide⟩ (no_tick (by decide) (by decide))
    (lim (by decide) (by decide) (by decide) (by decide)) (hsp ?_)
  refine hid (by decide) (by decide +kernel) (by decide) (notHead (by decide)) (notHead (by decide)) (hsp ?_)
  refine .elem (w := c! "*") (by simp only [Element]; decide) ⟨by decide, by decide, by decide⟩ (no_tick (by decide) (by decide))
    (lim (by decide) (by decide) (by decide) (by decide)) (hsp ?_)
  refine hid (by decide) (by decide +kernel) (by decide) (notHead (by decide)) (notHead (by decide)) ?_
  exact .elem (w := c! ";") (by simp only [Element]; decide) ⟨by decide, by decide, by decide⟩ (no_tick (by decide) (by decide))
    (lim (by decide) (by decide) (by decide) (by decide)) .nil

example : ∃ toks t ast, lex (c! "a+ b * C;") = some toks ∧ parseExpression exFollow toks = some (t, [tokenOf (.SEMI, c! ";")]) ∧ visitExpression t = .ok ast ∧
    astEval Term.alg1 Term.tok ast = some (exSumReading.eval Term.alg1) := by
  refine C108_source_meaning_partial Term.alg1 Term.tok Term.agrees1 (fun _ _ => rfl) _ exSum _ [] exSum_divided exSumReading ?_ ?_ (by decide)
    exFollow rfl exFollow_goesOn
  · have hi : ∀ {c : Char}, bytes [c] = [c] → NameLit.Tok (.ident [c]) (tokenOf (.BASIC_IDENTIFIER, [c])) := fun h => ⟨.inl rfl, h⟩
    simp only [exSumReading, exNm, LExpr.Toks, LRel.Toks, LShift.Toks, LSimple.Toks, LTerm.Toks, LFactor.Toks, LPrim.Toks, LName.Toks]
    refine ⟨[_], _, rfl, ⟨_, rfl, hi rfl⟩, [_], _, rfl, ⟨_, rfl, rfl⟩, [_], _, rfl, ⟨_, rfl, hi rfl⟩, [_], _, rfl, ⟨_, rfl, rfl⟩, _, rfl, hi rfl⟩
  · have h1 : ∀ s, LTerm.Ok (exNm s) := fun s => by
      simp only [exNm, LTerm.Ok, LFactor.Ok, LPrim.Ok, LName.Ok]
      exact ⟨.id none s, rfl⟩
    have h2 : ∀ s, LTerm.oneAgg (exNm s) = false := fun s => by simp only [exNm, LTerm.oneAgg, LFactor.oneAgg, LPrim.oneAgg]
    simp only [exSumReading, LExpr.Ok, LRel.Ok, LShift.Ok, LSimple.Ok, LTerm.Ok, LFactor.Ok, LPrim.Ok, LName.Ok, LSimple.oneAgg, LTerm.oneAgg,
      LFactor.oneAgg, LPrim.oneAgg, h1, h2, and_true, true_and]
    exact ⟨.id none (c! "C"), rfl⟩

end Verif.Vhdl
