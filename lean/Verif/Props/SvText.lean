import Verif.SvTextGood
import Verif.Props.SvExpr
import Verif.KernelRfl
/-!
# Properties of the way from SystemVerilog tokens to the AST (C109 - C111)
-/
namespace Verif.Sv
open P Verif.Spec.SvLrm Verif.Spec.Sv

theorem First.find {α : Type} {p : P α} {ts r : List STok} {a : α} (h : First None' p ts a r) {q : List STok → Bool} (hq : q r = true) :
    (p ts).find? (fun x => q x.2) = Option.some (a, r) := by
  obtain ⟨pre, post, e, h1⟩ := h
  rw [e, List.find?_append, List.find?_eq_none.2 fun x hx => (h1 x hx).elim, Option.none_or, List.find?_cons_of_pos (by exact hq)]

theorem ends_of_goesOn {R : List STok} (h : ∀ y s, R = y :: s → y.ty ∉ goesOn) : PEnds R ∧ Ends 0 R := by
  have key : ∀ t : ST, t ∉ goesOn → pCont t = false ∧ opPrec t = 0 := fun t => by cases t <;> decide
  exact ⟨fun y s e => (key _ (h y s e)).1, fun y s e => .inl (key _ (h y s e)).2⟩

/-- C109 (supported fragment): an expression written by the rules of the LRM, at any place where it does not go on, is parsed completely
and with the precedence and associativity of Table 11-2, and its AST has the meaning the LRM gives to the text. `follow` says with
which rests the parse of the file succeeds. Missing: the forms of expressions which `SExp` does not have (attributes, `inside`, `&&&`,
`++` and `--`, `tagged`, streaming concatenation, `min:typ:max`, casts to keyword types, `type(...)`, classes with parameters,
`this`, `randomize`, array methods); for the AST also what `SExp.Ok` excludes, see C63. -/
theorem C109_text_meaning_partial {V : Type} (A : Alg V) (leaf : Expr → V) (hA : Agrees A leaf) (B : Rules)
    (e : SExp) (w : List STok) (h : e.Toks w) (rest : List STok) (hr : ∀ y s, rest = y :: s → y.ty ∉ goesOn)
    (follow : List STok → Bool) (hf : follow rest = true) :
    ∃ t, parseExpression B follow (w ++ rest) = some (t, rest) ∧ evExp A t = e.eval A ∧
      (e.Ok → ∃ ast, visitExp t = .ok ast ∧ astEval A leaf ast = some (e.eval A)) := by
  obtain ⟨t, ht, f⟩ := (good_all (A := A) (B := B) w.length).exprQ h (Nat.le_refl _) (M := 7 * (w ++ rest).length + 7)
    (by rw [List.length_append]; omega) (ends_of_goesOn hr).1 (ends_of_goesOn hr).2 (Nat.zero_le _)
  refine ⟨t, f.find hf, ht.ev, fun hok => ?_⟩
  obtain ⟨ast, h1, h2⟩ := C63_expression_meaning_partial A leaf hA t (ht.ok hok)
  exact ⟨ast, h1, by rw [h2, ht.ev]⟩

/-- An identifier token. -/
def idTok (s : Str) : STok := ⟨.C_IDENTIFIER, s⟩
/-- A token of which the text does not matter. -/
def sym (t : ST) : STok := ⟨t, []⟩
def numTok (s : Str) : STok := ⟨.UNSIGNED_NUMBER, s⟩

/-- `a + b * c [ 3 +: 2 ] ? ~ d : f ( e , .x ( 1 ) )` -/
def exText : List STok := [idTok (c! "a"), sym .PLUS, idTok (c! "b"), sym .MUL, idTok (c! "c"), sym .LSQUARE_BR, numTok (c! "3"), sym .PLUS, sym .COLON,
  numTok (c! "2"), sym .RSQUARE_BR, sym .QUESTIONMARK, sym .NEG, idTok (c! "d"), sym .COLON, idTok (c! "f"), sym .LPAREN, idTok (c! "e"), sym .COMMA,
  sym .DOT, idTok (c! "x"), sym .LPAREN, numTok (c! "1"), sym .RPAREN, sym .RPAREN]
def exNm (s : Str) : SPrim := .name ⟨false, s⟩ []
def exNum (s : Str) : SExp := .prim (.lit (.integral (.unsigned s)))
/-- `(a + (b * c[3 +: 2])) ? (~ d) : f(e, .x(1))` -/
def exReading : SExp := .cond (.bin (.prim (exNm (c! "a"))) .add (.bin (.prim (exNm (c! "b"))) .mul
    (.prim (.part (exNm (c! "c")) .up (exNum (c! "3")) (exNum (c! "2"))))))
  (.un .neg (exNm (c! "d"))) (.prim (.call (exNm (c! "f")) [.pos (.prim (exNm (c! "e"))), .named ⟨false, c! "x"⟩ (exNum (c! "1"))]))

theorem exNm_toks (s : Str) : (exNm s).Toks [idTok s] := by
  rw [exNm, SPrim.Toks]
  exact ⟨[idTok s], [], rfl, ⟨_, rfl, rfl, by simp [idTok]⟩, rfl⟩
theorem exNmE_toks (s : Str) : (SExp.prim (exNm s)).Toks [idTok s] := by rw [SExp.Toks]; exact exNm_toks s
theorem exNum_toks (s : Str) : (exNum s).Toks [numTok s] := by
  rw [exNum, SExp.Toks, SPrim.Toks]
  exact ⟨_, rfl, rfl, rfl⟩

theorem exReading_toks : exReading.Toks exText := by
  rw [exReading, SExp.Toks]
  refine ⟨by decide, by decide, exText.take 11, exText.drop 11, rfl, ?_, [_], exText.drop 12, rfl, ⟨_, rfl, rfl⟩, (exText.drop 12).take 2, exText.drop 14,
    rfl, ?_, [_], exText.drop 15, rfl, ⟨_, rfl, rfl⟩, ?_⟩
  · rw [SExp.Toks]
    refine ⟨⟨by decide, by decide⟩, [_], _, rfl, exNmE_toks _, [_], _, rfl, ⟨_, rfl, rfl⟩, ?_⟩
    rw [SExp.Toks]
    refine ⟨⟨by decide, by decide⟩, [_], _, rfl, exNmE_toks _, [_], _, rfl, ⟨_, rfl, rfl⟩, ?_⟩
    rw [SExp.Toks, SPrim.Toks]
    exact ⟨[_], _, rfl, exNm_toks _, [_], _, rfl, ⟨_, rfl, rfl⟩, [_], _, rfl, exNum_toks _, [_, _], _, rfl,
      ⟨[_], [_], rfl, ⟨_, rfl, rfl⟩, _, rfl, rfl⟩, [_], _, rfl, exNum_toks _, _, rfl, rfl⟩
  · rw [SExp.Toks]
    exact ⟨[_], [_], rfl, ⟨_, rfl, rfl⟩, exNm_toks _⟩
  · rw [SExp.Toks, SPrim.Toks]
    refine ⟨⟨rfl, by simp⟩, rfl, [_], _, rfl, exNm_toks _, [_], _, rfl, ⟨_, rfl, rfl⟩, (exText.drop 17).take 7, [sym .RPAREN], rfl, ?_, _, rfl, rfl⟩
    rw [argsToks, SArg.Toks]
    refine ⟨[_], _, rfl, exNmE_toks _, ?_⟩
    rw [moreToks, SArg.Toks, moreToks]
    exact ⟨[_], _, rfl, ⟨_, rfl, rfl⟩, (exText.drop 19).take 5, [], rfl, ⟨[_], _, rfl, ⟨_, rfl, rfl⟩, [_], _, rfl, ⟨_, rfl, rfl, by decide⟩, [_], _, rfl, ⟨_, rfl, rfl⟩,
      [_], _, rfl, exNum_toks _, _, rfl, rfl⟩, rfl⟩

theorem exReading_ok : exReading.Ok := by
  have h1 : ∀ s, isKw s = false → SPrim.Ok (exNm s) := fun s h => by
    simp only [exNm, SPrim.Ok]
    exact ⟨⟨s, by simp [identStr], h⟩, by simp⟩
  have h2 : ∀ s, (∃ e, visitLit (.integral (.unsigned s)) = .ok e) → SExp.Ok (exNum s) := fun s h => by
    simp only [exNum, SExp.Ok, SPrim.Ok]
    exact ⟨h, by simp⟩
  simp only [exReading, SExp.Ok, SPrim.Ok, argsOk, SArg.Ok]
  refine ⟨⟨h1 _ (by decide +kernel), ⟨h1 _ (by decide +kernel), ⟨h1 _ (by decide +kernel), h2 _ ⟨_, rfl⟩, h2 _ ⟨_, rfl⟩⟩, by decide⟩, by decide⟩, h1 _ (by decide +kernel),
    h1 _ (by decide +kernel), by simp, h1 _ (by decide +kernel), ⟨⟨⟨_, by simp [identStr]; rfl, by decide +kernel⟩, h2 _ ⟨_, rfl⟩⟩, trivial, by simp⟩, by simp⟩

/-- The rest begins with a semicolon. -/
def exFollow (r : List STok) : Bool := r.head?.map STok.ty == some .SEMI
/-- Without the rules which are not modelled. -/
def exRules : Rules := ⟨P.fail, P.fail, P.fail, by intros; simp_all [P.fail], by intros; simp_all [P.fail], by intros; simp_all [P.fail]⟩

example : ∃ t ast, parseExpression exRules exFollow (exText ++ [sym .SEMI]) = some (t, [sym .SEMI]) ∧ visitExp t = .ok ast ∧
    astEval Term.alg Term.tok ast = some (exReading.eval Term.alg) := by
  obtain ⟨t, h1, -, h2⟩ := C109_text_meaning_partial Term.alg Term.tok Term.agrees exRules exReading exText exReading_toks [sym .SEMI]
    (by rintro y s e; cases e; decide) exFollow rfl
  obtain ⟨ast, h3, h4⟩ := h2 exReading_ok
  exact ⟨t, ast, h1, h3, h4⟩

/-- C109: a text has only one reading: two expressions of the LRM with the same tokens mean the same. -/
theorem C109_one_reading (e e' : SExp) (w : List STok) (h : e.Toks w) (h' : e'.Toks w) {V : Type} (A : Alg V) : e.eval A = e'.eval A := by
  have hn : ∀ y s, ([] : List STok) = y :: s → y.ty ∉ goesOn := fun _ _ e => by cases e
  obtain ⟨t, ht, f⟩ := (good_all (A := A) (B := exRules) w.length).exprQ h (Nat.le_refl _) (M := w.length + 1) (by omega) (ends_of_goesOn hn).1 (ends_of_goesOn hn).2
    (Nat.zero_le _)
  obtain ⟨t', ht', f'⟩ := (good_all (A := A) (B := exRules) w.length).exprQ h' (Nat.le_refl _) (M := w.length + 1) (by omega) (ends_of_goesOn hn).1 (ends_of_goesOn hn).2
    (Nat.zero_le _)
  have e1 := f.find (q := fun _ => true) rfl
  rw [f'.find (q := fun _ => true) rfl] at e1
  cases e1
  rw [← ht.ev, ht'.ev]

example (e : SExp) (h : e.Toks exText) : e.eval Term.alg = exReading.eval Term.alg := C109_one_reading e exReading exText h exReading_toks Term.alg

/-- C110: parentheses around an expression do not change its meaning. Missing as in C109. -/
theorem C110_parentheses_partial {V : Type} (A : Alg V) (leaf : Expr → V) (hA : Agrees A leaf) (B : Rules)
    (e : SExp) (hok : e.Ok) (w : List STok) (h : e.Toks w) (o c : STok) (ho : o.ty = .LPAREN) (hc : c.ty = .RPAREN)
    (rest : List STok) (hr : ∀ y s, rest = y :: s → y.ty ∉ goesOn) (follow : List STok → Bool) (hf : follow rest = true) :
    ∃ t t' ast ast', parseExpression B follow (w ++ rest) = some (t, rest) ∧
      parseExpression B follow (o :: (w ++ [c]) ++ rest) = some (t', rest) ∧ visitExp t = .ok ast ∧ visitExp t' = .ok ast' ∧
      ∃ v, astEval A leaf ast = some v ∧ astEval A leaf ast' = some v := by
  obtain ⟨t, h1, -, h2⟩ := C109_text_meaning_partial A leaf hA B e w h rest hr follow hf
  obtain ⟨ast, h3, h4⟩ := h2 hok
  have he' : (SExp.prim (.paren e)).Toks (o :: (w ++ [c])) := by
    rw [SExp.Toks, SPrim.Toks]
    exact ⟨[o], w ++ [c], rfl, ⟨o, rfl, ho⟩, w, [c], rfl, h, c, rfl, hc⟩
  obtain ⟨t', h1', -, h2'⟩ := C109_text_meaning_partial A leaf hA B _ _ he' rest hr follow hf
  obtain ⟨ast', h3', h4'⟩ := h2' (by rw [SExp.Ok, SPrim.Ok]; exact hok)
  exact ⟨t, t', ast, ast', h1, h1', h3, h3', _, h4, by rw [h4', SExp.eval, SPrim.eval]⟩

example : ∃ t ast, parseExpression exRules exFollow (sym .LPAREN :: (exText ++ [sym .RPAREN]) ++ [sym .SEMI]) = some (t, [sym .SEMI]) ∧
    visitExp t = .ok ast ∧ ∃ v, astEval Term.alg Term.tok ast = some v := by
  obtain ⟨_, t, _, ast, -, h, -, h', v, -, hv⟩ := C110_parentheses_partial Term.alg Term.tok Term.agrees exRules exReading exReading_ok exText
    exReading_toks (sym .LPAREN) (sym .RPAREN) rfl rfl [sym .SEMI] (by rintro y s e; cases e; decide) exFollow rfl
  exact ⟨t, ast, h, h', v, hv⟩

/-- The tree and the remaining tokens, if the tokens are accepted. -/
def readExp (ts : List STok) : Option (Exp × List STok) := parseExpression exRules exFollow ts

/-- C109 is violated for `&&&` (LRM 12.6.3: the condition of `?:` is a list of expressions with `&&&` between them): `a &&& b ? c : d`
is read as `a &&& (b ? c : d)`. -/
theorem C109_violated_triple_and (a b c d : Str) :
    readExp [idTok a, sym .TRIPLE_AND, idTok b, sym .QUESTIONMARK, idTok c, sym .COLON, idTok d, sym .SEMI] =
      Option.some (.tripleAnd (.prim (idP a)) false (.cond (.prim (idP b)) false (.prim (idP c)) (.prim (idP d))) false, [sym .SEMI]) := by
  kernel_rfl

/-! ## C111: brackets -/

/-- The words behind which the brackets are not followed: they begin rules which are not modelled, or which take lists of parameters. -/
def notFollowed : List ST := [.KW_RANDOMIZE, .KW_ENUM, .KW_STRUCT, .KW_UNION, .KW_VIRTUAL, .KW_THIS, .HASH, .KW_TYPE]

theorem scan_balanced : ∀ (u : List STok) (d q : Nat), (∀ x ∈ u, x.ty ∉ notFollowed) →
    (scan noS (.run d q) u = some (.run 0 0) ∨ scan noS (.run d q) u = some .free) → balanced d q u = true := by
  intro u
  induction u with
  | nil => intro d q _ h; simp only [scan, Option.some.injEq, Scan.run.injEq, reduceCtorEq, or_false] at h; simp [balanced, h]
  | cons x u ih =>
    intro d q hs h
    have h0 : isSpecial x.ty = false := by
      have := hs x (List.mem_cons_self ..)
      revert this; generalize x.ty = t; cases t <;> decide
    have hu : ∀ x ∈ u, x.ty ∉ notFollowed := fun y hy => hs y (List.mem_cons_of_mem _ hy)
    rw [scan, scan1, if_neg (by simp [h0]), if_neg (by simp [noS])] at h
    have ho : isOpen x.ty = true ↔ x.ty ∈ [ST.LPAREN, .LSQUARE_BR, .LBRACE, .APOSTROPHE_LBRACE] := by generalize x.ty = t; cases t <;> decide
    have hc : isClose x.ty = true ↔ x.ty ∈ [ST.RPAREN, .RSQUARE_BR, .RBRACE] := by generalize x.ty = t; cases t <;> decide
    rw [balanced]
    simp only [← ho, ← hc]
    by_cases h1 : isOpen x.ty = true
    · rw [if_pos h1] at h ⊢
      exact ih _ _ hu h
    rw [if_neg h1] at h ⊢
    by_cases h2 : isClose x.ty = true
    · rw [if_pos h2] at h ⊢
      by_cases hd : d = 0
      · simp [hd] at h
      · rw [if_neg hd] at h
        simp [hd]; exact ih _ _ hu h
    rw [if_neg h2] at h ⊢
    by_cases hd : d = 0
    · subst hd
      rw [if_neg (by simp)] at h
      by_cases h3 : x.ty = .QUESTIONMARK
      · rw [if_pos h3] at h
        rw [if_pos ⟨rfl, h3⟩]
        exact ih _ _ hu h
      rw [if_neg h3] at h
      rw [if_neg (by simp [h3])]
      by_cases h4 : x.ty = .COLON
      · rw [if_pos h4] at h
        rw [if_pos ⟨rfl, h4⟩]
        by_cases hq : q = 0
        · simp [hq] at h
        · rw [if_neg hq] at h
          simp [hq]; exact ih _ _ hu h
      · rw [if_neg h4] at h
        rw [if_neg (by simp [h4])]
        exact ih _ _ hu h
    · rw [if_pos hd] at h
      rw [if_neg (by simp [hd]), if_neg (by simp [hd])]
      exact ih _ _ hu h

/-- C111: what is accepted as an expression closes the brackets it opens, and no others, and has a `:` for every `?`. Missing: the kinds of
the brackets, and texts with the words of `notFollowed`. -/
theorem C111_brackets_partial (B : Rules) (follow : List STok → Bool) (ts r : List STok) (t : Exp) (h : parseExpression B follow ts = some (t, r)) :
    ∃ u, ts = u ++ r ∧ follow r = true ∧ ((∀ x ∈ u, x.ty ∉ notFollowed) → balanced 0 0 u = true) := by
  have hf := List.find?_some h
  obtain ⟨u, e, hu⟩ := (sound_env B _).expression 0 _ _ (List.mem_of_find?_eq_some h)
  exact ⟨u, e, hf, fun hs => scan_balanced u 0 0 hs (hu 0 0 trivial)⟩

example : ∃ t, parseExpression exRules exFollow (exText ++ [sym .SEMI]) = some (t, [sym .SEMI]) ∧ balanced 0 0 exText = true := by
  obtain ⟨t, h1, -⟩ := C109_text_meaning_partial Term.alg Term.tok Term.agrees exRules exReading exText exReading_toks [sym .SEMI]
    (by rintro y s e; cases e; decide) exFollow rfl
  obtain ⟨u, e, -, h⟩ := C111_brackets_partial exRules exFollow _ _ t h1
  rw [← List.append_cancel_right e] at h
  exact ⟨t, h1, h (by decide +kernel)⟩

end Verif.Sv
