import Verif.VhdlTextStep
import Verif.Props.VhdlExpr
import Verif.KernelRfl
/-!
# Properties of the way from VHDL tokens to the AST (C102, C103)
-/
namespace Verif.Vhdl
open P Verif.Spec Verif.Spec.Lrm

/-- C102 (supported fragment): an expression written by the rules of the LRM, at any place, is parsed completely and with the precedence
and associativity of the LRM, and its AST has the meaning the LRM gives to the text. `follow` says with which rests the parse of the file
succeeds; `A.call` is identified with `A.index`, because a call looks like an indexed name. Missing: what `LExpr.Ok` excludes, see C61;
which of the two operators is used, see `C102_violated_nested_call`. -/
theorem C102_text_meaning_partial {V : Type} (A : Alg V) (leaf : Expr → V) (hA : Agrees A leaf) (hcall : ∀ f l, A.call f l = A.index f l)
    (e : LExpr) (w : List VTok) (h : e.Toks w) (y : VTok) (hy : y.ty ∈ afterExpr) (rest : List VTok) (follow : List VTok → Bool)
    (hf : follow (y :: rest) = true) (hn : ∀ z s, z.ty ∈ goesOn → follow (z :: s) = false) :
    ∃ t, parseExpression follow (w ++ y :: rest) = some (t, y :: rest) ∧ evExpression A t = e.eval A ∧
      (LExpr.Ok e → ∃ ast, visitExpression t = .ok ast ∧ astEval A leaf ast = some (e.eval A)) := by
  obtain ⟨t, ht, f⟩ := (good_all hcall w.length).expr' h (Nat.le_refl _) (M := 4 * (w ++ y :: rest).length + 4)
    (by rw [List.length_append]; omega) (after_endE hy rest)
  refine ⟨t, ?_, ht.ev, fun hok => ?_⟩
  · refine f.find hf fun s hs => ?_
    obtain ⟨z, r, rfl, hz⟩ := goesOn_dp hs
    exact hn z r hz
  · obtain ⟨ast, h1, h2⟩ := C61_expression_meaning_partial A leaf hA t (ht.ok hok)
    exact ⟨ast, h1, by rw [h2, ht.ev]⟩

/-- Terms where calls and indexed names are the same. -/
def Term.alg1 : Alg Term := { Term.alg with call := Term.alg.index }
theorem Term.agrees1 : Agrees Term.alg1 Term.tok := ⟨Term.agrees.lit, Term.agrees.dec, Term.agrees.based, Term.agrees.bits, rfl⟩

/-- An identifier token. -/
def idTok (s : Str) : VTok := ⟨.BASIC_IDENTIFIER, s⟩
/-- A token of which the text does not matter. -/
def sym (t : VT) : VTok := ⟨t, []⟩

/-- `- a + b * c ( 1 to 2 ) & d` -/
def exText : List VTok := [sym .MINUS, idTok (c! "a"), sym .PLUS, idTok (c! "b"), sym .MUL, idTok (c! "c"), sym .LPAREN,
  ⟨.DECIMAL_LITERAL, c! "1"⟩, sym (.kw .TO), ⟨.DECIMAL_LITERAL, c! "2"⟩, sym .RPAREN, sym .AMPERSAND, idTok (c! "d")]
def exNm (s : Str) : LTerm := .one (.prim (.name (.lit (.ident s))))
def exDec (s : Str) : LSimple := .one (.one (.prim (.dec s)))
/-- `((- a) + (b * c(1 to 2))) & d` -/
def exReading : LExpr := .one (.one (.one (.add (.add (.signed .minus (exNm (c! "a"))) .plus
  (.mul (exNm (c! "b")) .mul (.prim (.name (.slice (.lit (.ident (c! "c"))) (exDec (c! "1")) false (exDec (c! "2"))))))) .amp (exNm (c! "d")))))

theorem exIdent (s : Str) : NameLit.Tok (.ident s) (idTok s) := ⟨.inl rfl, rfl⟩

theorem exReading_toks : exReading.Toks exText := by
  simp only [exReading, exNm, exDec, LExpr.Toks, LRel.Toks, LShift.Toks, LSimple.Toks, LTerm.Toks, LFactor.Toks, LPrim.Toks, LName.Toks]
  refine ⟨exText.take 11, exText.drop 11, rfl, ?_, [sym .AMPERSAND], _, rfl, ⟨_, rfl, rfl⟩, _, rfl, exIdent _⟩
  refine ⟨exText.take 2, (exText.take 11).drop 2, rfl, ⟨[sym .MINUS], _, rfl, ⟨_, rfl, rfl⟩, _, rfl, exIdent _⟩,
    [sym .PLUS], _, rfl, ⟨_, rfl, rfl⟩, ?_⟩
  refine ⟨[idTok (c! "b")], _, rfl, ⟨_, rfl, exIdent _⟩, [sym .MUL], _, rfl, ⟨_, rfl, rfl⟩, ?_⟩
  refine ⟨[idTok (c! "c")], _, rfl, ⟨_, rfl, exIdent _⟩, [sym .LPAREN], _, rfl, ⟨_, rfl, rfl⟩, ?_⟩
  exact ⟨[_], _, rfl, ⟨_, rfl, rfl, rfl⟩, [_], _, rfl, ⟨_, rfl, rfl⟩, [_], _, rfl, ⟨_, rfl, rfl, rfl⟩, _, rfl, rfl⟩

theorem exReading_ok : LExpr.Ok exReading := by
  have h1 : ∀ s, LTerm.Ok (exNm s) := fun s => by
    simp only [exNm, LTerm.Ok, LFactor.Ok, LPrim.Ok, LName.Ok]
    exact ⟨.id none s, rfl⟩
  have h2 : ∀ s, LTerm.oneAgg (exNm s) = false := fun s => by simp only [exNm, LTerm.oneAgg, LFactor.oneAgg, LPrim.oneAgg]
  have h3 : LSimple.Ok (exDec (c! "1")) := by
    simp only [exDec, LSimple.Ok, LTerm.Ok, LFactor.Ok, LPrim.Ok]
    exact ⟨_, rfl⟩
  have h4 : LSimple.Ok (exDec (c! "2")) := by
    simp only [exDec, LSimple.Ok, LTerm.Ok, LFactor.Ok, LPrim.Ok]
    exact ⟨_, rfl⟩
  simp only [exReading, LExpr.Ok, LRel.Ok, LShift.Ok, LSimple.Ok, LTerm.Ok, LFactor.Ok, LPrim.Ok, LName.Ok, LSimple.oneAgg, LTerm.oneAgg,
    LFactor.oneAgg, LPrim.oneAgg, h1, h2, h3, h4, and_true, true_and]
  exact ⟨.id none (c! "c"), rfl⟩

/-- A follow function as demanded: the rest begins with a semicolon. -/
def exFollow (r : List VTok) : Bool := next r == some .SEMI
theorem exFollow_goesOn (z : VTok) (s : List VTok) (h : z.ty ∈ goesOn) : exFollow (z :: s) = false := by
  rw [exFollow, next_cons]
  generalize z.ty = t at h
  simp only [goesOn, List.mem_cons, List.not_mem_nil, or_false] at h
  rcases h with rfl | rfl | rfl | rfl <;> decide

example : ∃ t ast, parseExpression exFollow (exText ++ [sym .SEMI]) = some (t, [sym .SEMI]) ∧ visitExpression t = .ok ast ∧
    astEval Term.alg1 Term.tok ast = some (exReading.eval Term.alg1) := by
  obtain ⟨t, h1, -, h2⟩ := C102_text_meaning_partial Term.alg1 Term.tok Term.agrees1 (fun _ _ => rfl) exReading exText exReading_toks (sym .SEMI)
    (by decide) [] exFollow rfl exFollow_goesOn
  obtain ⟨ast, h3, h4⟩ := h2 exReading_ok
  exact ⟨t, ast, h1, h3, h4⟩

/-- C102: a text has only one reading: two expressions of the LRM with the same tokens mean the same. -/
theorem C102_one_reading (e e' : LExpr) (w : List VTok) (h : e.Toks w) (h' : e'.Toks w) {V : Type} (A : Alg V)
    (hcall : ∀ f l, A.call f l = A.index f l) : e.eval A = e'.eval A := by
  obtain ⟨t, ht, f⟩ := (good_all hcall w.length).expr' h (Nat.le_refl _) (M := 3 * w.length + 3) (by omega)
    (after_endE (y := ⟨.SEMI, []⟩) (by decide) [])
  obtain ⟨t', ht', f'⟩ := (good_all hcall w.length).expr' h' (Nat.le_refl _) (M := 3 * w.length + 3) (by omega)
    (after_endE (y := ⟨.SEMI, []⟩) (by decide) [])
  have key : ∀ s, Dp s → (next s == some .SEMI) = false := by
    rintro s ⟨y, r, rfl, hy⟩
    rw [beq_eq_false_iff_ne]
    intro e
    simp only [next_cons, Option.some.injEq] at e
    rw [e] at hy; cases hy
  have e1 := f.find (q := fun s => next s == some .SEMI) rfl key
  rw [f'.find (q := fun s => next s == some .SEMI) rfl key] at e1
  cases e1
  rw [← ht.ev, ht'.ev]

example (e : LExpr) (h : e.Toks exText) : e.eval Term.alg1 = exReading.eval Term.alg1 :=
  C102_one_reading e exReading exText h exReading_toks Term.alg1 fun _ _ => rfl

/-- C103: parentheses around an expression do not change its meaning. -/
theorem C103_parentheses_partial {V : Type} (A : Alg V) (leaf : Expr → V) (hA : Agrees A leaf) (hcall : ∀ f l, A.call f l = A.index f l)
    (e : LExpr) (hok : LExpr.Ok e) (w : List VTok) (h : e.Toks w) (o c y : VTok) (ho : o.ty = .LPAREN) (hc : c.ty = .RPAREN) (hy : y.ty ∈ afterExpr)
    (rest : List VTok) (follow : List VTok → Bool) (hf : follow (y :: rest) = true) (hn : ∀ z s, z.ty ∈ goesOn → follow (z :: s) = false) :
    ∃ t t' ast ast', parseExpression follow (w ++ y :: rest) = some (t, y :: rest) ∧
      parseExpression follow (o :: (w ++ [c]) ++ y :: rest) = some (t', y :: rest) ∧ visitExpression t = .ok ast ∧ visitExpression t' = .ok ast' ∧
      ∃ v, astEval A leaf ast = some v ∧ astEval A leaf ast' = some v := by
  obtain ⟨t, h1, -, h2⟩ := C102_text_meaning_partial A leaf hA hcall e w h y hy rest follow hf hn
  obtain ⟨ast, h3, h4⟩ := h2 hok
  let e' : LExpr := .one (.one (.one (.one (.one (.prim (.group (.pos e) []))))))
  have he' : e'.Toks (o :: (w ++ [c])) := by
    simp only [e', LExpr.Toks, LRel.Toks, LShift.Toks, LSimple.Toks, LTerm.Toks, LFactor.Toks, LPrim.Toks, LElem.Toks, elemsToks]
    exact ⟨[o], w ++ [c], rfl, ⟨o, rfl, ho⟩, w, [c], rfl, h, [], [c], rfl, rfl, c, rfl, hc⟩
  obtain ⟨t', h1', -, h2'⟩ := C102_text_meaning_partial A leaf hA hcall e' _ he' y hy rest follow hf hn
  obtain ⟨ast', h3', h4'⟩ := h2' (by
    simp only [e', LExpr.Ok, LRel.Ok, LShift.Ok, LSimple.Ok, LTerm.Ok, LFactor.Ok, LPrim.Ok, LElem.Ok, elemsOk]
    exact ⟨hok, trivial⟩)
  refine ⟨t, t', ast, ast', h1, h1', h3, h3', _, h4, ?_⟩
  rw [h4']
  simp only [e', LExpr.eval, LRel.eval, LShift.eval, LSimple.eval, LTerm.eval, LFactor.eval, LPrim.eval, LElem.eval, elemsEval, groupVal, LElem.isPos,
    if_true]

example : ∃ t ast, parseExpression exFollow (sym .LPAREN :: (exText ++ [sym .RPAREN]) ++ [sym .SEMI]) = some (t, [sym .SEMI]) ∧
    visitExpression t = .ok ast ∧ ∃ v, astEval Term.alg1 Term.tok ast = some v := by
  obtain ⟨_, t, _, ast, -, h, -, h', v, -, hv⟩ := C103_parentheses_partial Term.alg1 Term.tok Term.agrees1 (fun _ _ => rfl) exReading exReading_ok exText
    exReading_toks (sym .LPAREN) (sym .RPAREN) (sym .SEMI) rfl rfl (by decide) [] exFollow rfl exFollow_goesOn
  exact ⟨t, ast, h, h', v, hv⟩

/-- The AST and the remaining tokens, if the tokens are accepted. -/
def readAst (ts : List VTok) : Option (Except Exc Expr × List VTok) := (parseExpression exFollow ts).map fun r => (visitExpression r.1, r.2)

/-- C102 is violated for the operator of calls: `f ( g ( x ) )` becomes an index operator with a call operator inside, although both
are the same construct, and `g ( x )` alone is an index operator. -/
theorem C102_violated_nested_call (f g x : Str) :
    readAst [idTok f, sym .LPAREN, idTok g, sym .LPAREN, idTok x, sym .RPAREN, sym .RPAREN, sym .SEMI] =
      some (.ok (.op none .INDEX [.id none f, .op none .CALL [.id none g, .id none x]]), [sym .SEMI]) ∧
    readAst [idTok g, sym .LPAREN, idTok x, sym .RPAREN, sym .SEMI] = some (.ok (.op none .INDEX [.id none g, .id none x]), [sym .SEMI]) := by
  constructor
  · kernel_rfl
  · kernel_rfl

/-- C104: what is accepted as an expression has matching brackets. Missing: the rest of the rules of the LRM, see `C104_violated_relations`. -/
theorem C104_brackets_partial (follow : List VTok → Bool) (ts r : List VTok) (t : Expression) (h : parseExpression follow ts = some (t, r)) :
    ∃ u, ts = u ++ r ∧ depthAfter 0 u = some 0 := by
  obtain ⟨⟨u, e, hu⟩, -⟩ := (sound_env _).expression 0 _ _ (List.mem_of_find?_eq_some h)
  refine ⟨u, e, ?_⟩
  have := hu.bal.depth 0 []
  rwa [List.append_nil] at this

example : (parseExpression exFollow (exText ++ [sym .SEMI])).isSome = true ∧ depthAfter 0 exText = some 0 ∧
    parseExpression exFollow (exText.eraseIdx 6 ++ [sym .SEMI]) = none := by
  refine ⟨?_, by decide, ?_⟩ <;> kernel_rfl

/-- C104 is violated: `a < b = c`, `a and b or c`, `a nand b nand c` and `a * - b` are no expressions (LRM 9.1), but are accepted and read
from left to right, and as `a * (- b)`. -/
theorem C104_violated_relations (a b c : Str) :
    readAst [idTok a, sym .LT, idTok b, sym .EQ, idTok c, sym .SEMI] =
      some (.ok (.op none .EQ [.op none .LT [.id none a, .id none b], .id none c]), [sym .SEMI]) ∧
    readAst [idTok a, sym (.kw .AND), idTok b, sym (.kw .OR), idTok c, sym .SEMI] =
      some (.ok (.op none .OR [.op none .AND [.id none a, .id none b], .id none c]), [sym .SEMI]) ∧
    readAst [idTok a, sym (.kw .NAND), idTok b, sym (.kw .NAND), idTok c, sym .SEMI] =
      some (.ok (.op none .NAND [.op none .NAND [.id none a, .id none b], .id none c]), [sym .SEMI]) ∧
    readAst [idTok a, sym .MUL, sym .MINUS, idTok b, sym .SEMI] =
      some (.ok (.op none .MUL [.id none a, .op none .MINUS_UNARY [.id none b]]), [sym .SEMI]) := by
  refine ⟨?_, ?_, ?_, ?_⟩ <;> kernel_rfl

/-- C104 is violated: `a ' begin` is accepted, though a reserved word is not the name of an attribute unless it is `range` or
`subtype` (LRM 8.6). -/
theorem C104_violated_attribute (a : Str) :
    (readAst [idTok a, sym .APOSTROPHE, ⟨.kw .BEGIN, c! "begin"⟩, sym .SEMI]).isSome = true := by
  kernel_rfl

end Verif.Vhdl
