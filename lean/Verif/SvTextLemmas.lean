import Verif.SvTextScan
import Verif.SvExprLemmas
/-!
# The first tokens of the rules, and the first token of a text
-/
namespace Verif.Sv
open P Verif.Spec.SvLrm Verif.Spec.Sv

variable {α β : Type}

/-! ## The first tokens of the rules -/

/-- No parse at the end of the tokens and in front of a token of `N`. -/
def NoAt (N : ST → Bool) (p : P α) : Prop := ∀ ts, (∀ y s, ts = y :: s → N y.ty = true) → p ts = []

section
variable {N : ST → Bool} {p q : P α}

theorem NoAt.cons (h : NoAt N p) {y : STok} {s : List STok} (hy : N y.ty = true) : p (y :: s) = [] :=
  h _ fun _ _ e => by cases e; exact hy
theorem NoAt.nil (h : NoAt N p) : p [] = [] := h _ fun _ _ e => by cases e
theorem NoAt.tok {t : ST} (h : N t = false) : NoAt N (tok t) := by
  intro ts hts
  cases ts with
  | nil => rfl
  | cons y s =>
    refine tok_neg (fun e => ?_) s
    have := hts y s rfl
    rw [e, h] at this; cases this
theorem NoAt.bind {f : α → P β} (h : NoAt N p) : NoAt N (p >>= f) := fun ts hts => bind_nil (h ts hts)
theorem NoAt.or (h1 : NoAt N p) (h2 : NoAt N q) : NoAt N (P.or p q) := fun ts hts => by rw [or_apply, h1 ts hts, h2 ts hts]; rfl
theorem NoAt.fail : NoAt N (P.fail : P α) := fun _ _ => rfl
theorem NoAt.alts {l : List (P α)} (h : ∀ p ∈ l, NoAt N p) : NoAt N (alts l) := by
  intro ts hts
  rw [alts_apply]
  apply List.eq_nil_iff_forall_not_mem.2
  intro x hx
  obtain ⟨p, hp, hx⟩ := List.mem_flatMap.1 hx
  rw [h p hp ts hts] at hx; cases hx
theorem NoAt.optBind {f : Option α → P β} (h : NoAt N p) (hf : NoAt N (f none)) : NoAt N (opt p >>= f) := by
  intro ts hts
  rw [bind_apply, opt_none (h ts hts)]
  simpa using hf ts hts
theorem many_none {ts : List STok} (h : p ts = []) : many p ts = [([], ts)] := by
  show manyN p ts.length ts = _
  cases ts.length with
  | zero => rfl
  | succ n =>
    show (p >>= fun a => _) ts ++ _ = _
    rw [bind_nil h]; rfl
theorem NoAt.manyBind {f : List α → P β} (h : NoAt N p) (hf : NoAt N (f [])) : NoAt N (many p >>= f) := by
  intro ts hts
  rw [bind_apply, many_none (h ts hts)]
  simpa using hf ts hts
theorem NoAt.texts {l : List ST} (h : ∀ t ∈ l, N t = false) : NoAt N (texts l) := by
  refine .alts fun p hp => ?_
  obtain ⟨t, ht, rfl⟩ := List.mem_map.1 hp
  exact .tok (h t ht)
theorem NoAt.toks {l : List (ST × α)} (h : ∀ t ∈ l, N t.1 = false) : NoAt N (toks l) := by
  refine .alts fun p hp => ?_
  obtain ⟨t, ht, rfl⟩ := List.mem_map.1 hp
  exact .bind (.tok (h t ht))
theorem NoAt.prec {i j : Nat} (h : j ≤ i → NoAt N p) : NoAt N (prec j i p) := by
  unfold Sv.prec
  split
  · exact h (by assumption)
  · exact .fail
theorem NoAt.mono {N' : ST → Bool} (h : NoAt N p) (hN : ∀ t, N' t = true → N t = true) : NoAt N' p :=
  fun ts hts => h ts fun y s e => hN _ (hts y s e)
end

/-- Tokens of `identifier`. -/
def isIdTok : ST → Bool
  | .C_IDENTIFIER | .SIMPLE_IDENTIFIER | .ESCAPED_IDENTIFIER | .KW_SAMPLE | .KW_RANDOMIZE | .KW_TYPE_OPTION | .KW_OPTION | .KW_STD => true
  | _ => false
/-- Tokens at the beginning of a path. -/
def isPathTok (t : ST) : Bool := isIdTok t || match t with
  | .KW_LOCAL | .KW_DOLAR_ROOT | .KW_THIS | .KW_SUPER | .KW_DOLAR_UNIT => true
  | _ => false
/-- Tokens of literals. -/
def isLitTok : ST → Bool
  | .TIME_LITERAL | .UNBASED_UNSIZED_LITERAL | .STRING_LITERAL | .BASED_NUMBER_WITH_SIZE | .UNSIGNED_NUMBER | .ANY_BASED_NUMBER
  | .REAL_NUMBER_WITH_EXP | .FIXED_POINT_NUMBER | .KW_NULL | .KW_THIS | .DOLAR => true
  | _ => false
/-- Tokens no expression and no data type begins with. -/
def eNo : ST → Bool
  | .COLON | .RPAREN | .RSQUARE_BR | .RBRACE | .COMMA | .DOT | .KW_DEFAULT | .MUL | .QUESTIONMARK | .LSQUARE_BR | .DOUBLE_COLON => true
  | .SEMI | .HASH | .AT | .DOUBLE_HASH | .ARROW | .DOUBLE_RIGHT_ARROW | .ASSIGN | .LE | .KW_POSEDGE | .KW_NEGEDGE | .KW_EDGE | .KW_OR | .KW_IFF => true
  | .KW_IF | .KW_ELSE | .KW_BEGIN | .KW_END | .KW_FORK | .KW_JOIN | .KW_JOIN_ANY | .KW_JOIN_NONE | .KW_CASE | .KW_CASEZ | .KW_CASEX
  | .KW_ENDCASE | .KW_FOR | .KW_FOREVER | .KW_FOREACH | .KW_REPEAT | .KW_WHILE | .KW_DO | .KW_RETURN | .KW_BREAK | .KW_CONTINUE | .KW_VOID
  | .KW_DISABLE | .KW_WAIT | .KW_WAIT_ORDER | .KW_RANDCASE | .KW_ASSIGN | .KW_DEASSIGN | .KW_FORCE | .KW_RELEASE | .KW_NEW | .KW_VAR
  | .KW_STATIC | .KW_AUTOMATIC | .KW_UNIQUE | .KW_UNIQUE0 | .KW_PRIORITY | .KW_LOCALPARAM | .KW_PARAMETER | .KW_TYPEDEF | .KW_IMPORT
  | .KW_LET | .KW_NETTYPE | .KW_1STEP | .KW_MATCHES | .KW_INSIDE
  | .KW_INITIAL | .KW_ALWAYS | .KW_ALWAYS_COMB | .KW_ALWAYS_FF | .KW_ALWAYS_LATCH | .KW_GENVAR | .KW_GENERATE | .KW_ENDGENERATE | .KW_RAND
  | .KW_MODULE | .KW_MACROMODULE | .KW_ENDMODULE | .KW_EXTERN | .KW_INPUT | .KW_OUTPUT | .KW_INOUT | .KW_REF | .KW_INTERCONNECT
  | .KW_SUPPLY0 | .KW_SUPPLY1 | .KW_TRI | .KW_TRIAND | .KW_TRIOR | .KW_TRIREG | .KW_TRI0 | .KW_TRI1 | .KW_UWIRE | .KW_WIRE | .KW_WAND | .KW_WOR | .KW_VECTORED | .KW_SCALARED => true
  | _ => false
/-- Unary operators. -/
def isUnTok : ST → Bool
  | .PLUS | .MINUS | .NOT | .NEG | .AMPERSAND | .NAND | .BAR | .NOR | .XOR | .NXOR | .XORN => true
  | _ => false
/-- Tokens no primary begins with. -/
def pNo (t : ST) : Bool := eNo t || isUnTok t

/-- `NoAt` for lists of alternatives. -/
macro "noat_alts" : tactic => `(tactic| (refine NoAt.alts ?_; simp only [List.forall_mem_cons]))

theorem identifier_no : NoAt (fun t => !isIdTok t) identifier :=
  .or (.bind (.tok rfl)) (.or (.bind (.tok rfl)) (.or (.bind (.tok rfl)) (.bind (.texts (by decide)))))

theorem path_no (E : Env) : NoAt (fun t => !isPathTok t) (path E) := by
  refine .optBind (.bind (.tok rfl)) (.bind ?_)
  noat_alts
  refine ⟨.bind (.tok rfl), .bind (.or (.bind (.tok rfl)) (.bind (.tok rfl))), .bind (.tok rfl), .bind (.bind (identifier_no.mono ?_)), by simp⟩
  intro t; cases t <;> decide

theorem literal_no : NoAt (fun t => !isLitTok t) primaryLiteral := by
  noat_alts
  refine ⟨.bind (.tok rfl), .bind (.tok rfl), .bind (.tok rfl), .bind ?_, .bind (.texts (by decide)), .bind (.tok rfl), .bind (.tok rfl), .bind (.tok rfl), by simp⟩
  noat_alts
  exact ⟨.bind (.tok rfl), .optBind (.tok rfl) (.bind (.tok rfl)), .bind (.tok rfl), by simp⟩

theorem pNo_path {t : ST} (h : pNo t = true) : isPathTok t = false := by cases t <;> first | rfl | cases h
theorem pNo_lit {t : ST} (h : pNo t = true) : isLitTok t = false := by cases t <;> first | rfl | cases h

theorem path_pNo (E : Env) : NoAt pNo (path E) := (path_no E).mono fun t h => by rw [pNo_path h]; rfl
theorem literal_pNo : NoAt pNo primaryLiteral := literal_no.mono fun t h => by rw [pNo_lit h]; rfl
theorem identifier_pNo : NoAt pNo identifier := identifier_no.mono fun t h => by cases t <;> first | rfl | cases h
theorem patternType_pNo (E : Env) : NoAt pNo (patternType E) := by
  noat_alts
  exact ⟨.bind (path_pNo E), .bind (.texts (by decide)), .bind (.bind (.tok rfl)), by simp⟩

theorem primaryHead_pNo (B : Rules) (E : Env) : NoAt pNo (primaryHead B E) := by
  noat_alts
  refine ⟨.bind literal_pNo, .bind (path_pNo E), .bind (.tok rfl), .bind ?_, .bind (.bind (.tok rfl)), .bind (.bind (.tok rfl)),
    .bind (.texts (by decide)), .optBind (.bind (.tok rfl)) (.bind (.bind (.tok rfl))), .bind (.optBind (patternType_pNo E) (.bind (.bind (.tok rfl)))),
    .bind (.bind (.tok rfl)), by simp⟩
  noat_alts
  exact ⟨.bind (.tok rfl), .bind (.tok rfl), .bind (.or (.texts (by decide)) (.texts (by decide))), .bind (.texts (by decide)),
    .bind (.toks (by decide)), by simp⟩

theorem primary_pNo (B : Rules) (E : Env) : NoAt pNo (primary B E) := .bind (primaryHead_pNo B E)

theorem lvalue_pNo (E : Env) : NoAt pNo (lvalue E) := by
  noat_alts
  exact ⟨.bind (.tok rfl), .bind (.bind (path_pNo E)), .optBind (patternType_pNo E) (.bind (.tok rfl)), .bind (.bind (.tok rfl)), by simp⟩

theorem lvalue_env (B : Rules) (n : Nat) : NoAt pNo (env B n).lvalue := by
  cases n with
  | zero => exact .fail
  | succ n => exact lvalue_pNo _

theorem eNo_pNo {t : ST} (h : eNo t = true) : pNo t = true := by rw [pNo, h]; rfl

theorem expression_eNo (B : Rules) (n p : Nat) : NoAt eNo ((env B n).expression p) := by
  cases n with
  | zero => exact .fail
  | succ n =>
    refine .bind ?_
    have hp := (primary_pNo B (env B n)).mono fun t => eNo_pNo
    noat_alts
    refine ⟨.bind hp, .bind (.tok rfl), .bind (.tok rfl), .bind (.toks (by decide)), ?_, by simp⟩
    exact .or (.bind (.toks (by decide))) (.bind ((lvalue_env B n).mono fun t => eNo_pNo))

theorem dataType_eNo (B : Rules) (n : Nat) : NoAt eNo (env B n).dataType := by
  cases n with
  | zero => exact .fail
  | succ n =>
    noat_alts
    refine ⟨.bind (.tok rfl), .bind (.tok rfl), .bind (.tok rfl), .bind (.tok rfl), .bind ?_, .bind (.bind (.tok rfl)), by simp⟩
    noat_alts
    refine ⟨.bind ?_, .bind (.tok rfl), .bind (.texts (by decide)), .bind ((path_pNo _).mono fun t => eNo_pNo), by simp⟩
    noat_alts
    exact ⟨.bind (.texts (by decide)), .bind (.texts (by decide)), .bind (.texts (by decide)), by simp⟩

theorem concatenation_no (B : Rules) (n : Nat) : NoAt (fun t => t != .LBRACE) (env B n).concatenation := by
  cases n with
  | zero => exact .fail
  | succ n => exact .bind (.tok rfl)

/-! ## Where a primary and an expression end -/

/-- Tokens with which a primary goes on. -/
def pCont : ST → Bool
  | .APOSTROPHE | .LSQUARE_BR | .DOT | .LPAREN | .KW_WITH | .ANY_BASED_NUMBER | .HASH | .DOUBLE_COLON => true
  | _ => false
/-- The precedence with which an expression goes on behind a token, `0`: it does not. -/
def opPrec : ST → Nat
  | .DOUBLESTAR => 15
  | .MUL | .DIV | .MOD => 14
  | .PLUS | .MINUS => 13
  | .SHIFT_LEFT | .SHIFT_RIGHT | .ARITH_SHIFT_LEFT | .ARITH_SHIFT_RIGHT => 12
  | .LT | .LE | .GT | .GE => 11
  | .KW_INSIDE => 10
  | .EQ | .NE | .CASE_EQ | .CASE_NE | .WILDCARD_EQ | .WILDCARD_NE => 9
  | .AMPERSAND => 8
  | .XOR | .NXOR | .XORN => 7
  | .BAR => 6
  | .AND_LOG => 5
  | .OR_LOG => 4
  | .TRIPLE_AND | .KW_MATCHES => 3
  | .QUESTIONMARK => 2
  | .ARROW | .BI_DIR_ARROW => 1
  | _ => 0

/-- `+:`, `-:` -/
def PlusColon (y : STok) (s : List STok) : Prop := (y.ty = .PLUS ∨ y.ty = .MINUS) ∧ ∃ y' s', s = y' :: s' ∧ y'.ty = .COLON

/-- A primary does not go on. -/
def PEnds (R : List STok) : Prop := ∀ y s, R = y :: s → pCont y.ty = false
/-- An expression of precedence `q` does not go on. -/
def Ends (q : Nat) (R : List STok) : Prop := ∀ y s, R = y :: s → opPrec y.ty = 0 ∨ opPrec y.ty < q ∨ PlusColon y s

theorem Ends.mono {q q' : Nat} {R : List STok} (h : Ends q R) (hq : q ≤ q') : Ends q' R := by
  intro y s e
  rcases h y s e with h | h | h
  · exact .inl h
  · exact .inr (.inl (by omega))
  · exact .inr (.inr h)

theorem attributeInstance_no (E : Env) {N : ST → Bool} (h : N .LPAREN = false) : NoAt N (attributeInstance E) := .bind (.tok h)

theorem methodOpt_no {N : ST → Bool} (h : N .DOT = false) {f : Option Str → P α} (hf : NoAt N (f none)) : NoAt N (methodOpt >>= f) :=
  .optBind (.bind (.tok h)) hf

theorem primaryStep_no (B : Rules) (E : Env) (a : Prim) : NoAt (fun t => !pCont t) (primaryStep B E a) := by
  noat_alts
  exact ⟨.bind (.tok rfl), .bind (.bind (.tok rfl)), .bind (.tok rfl), .bind (.tok rfl), .bind (.tok rfl),
    methodOpt_no rfl (.manyBind (attributeInstance_no E rfl) (.bind (.tok rfl))), .bind (.tok rfl),
    methodOpt_no rfl (.manyBind (attributeInstance_no E rfl) (.bind (.bind (.tok rfl)))), by simp⟩

theorem primaryStep_nil {B : Rules} {E : Env} {a : Prim} {R : List STok} (h : PEnds R) : primaryStep B E a R = [] :=
  primaryStep_no B E a R fun y s e => by simp [h y s e]

/-- Operators of other precedences. -/
def opNo (q : Nat) (t : ST) : Bool := opPrec t == 0 || decide (opPrec t < q)

theorem binary_no {E : Env} {a : Exp} {q i j : Nat} {l : List (ST × BinOp)} (h : ∀ x ∈ l, opPrec x.1 = i) (hi : i ≠ 0) :
    NoAt (opNo q) (prec q i (binary E a (toks l) j)) := by
  refine .prec fun hq => .bind (.toks fun x hx => ?_)
  simp only [opNo, h x hx, Bool.or_eq_false_iff, beq_eq_false_iff_ne, ne_eq, decide_eq_false_iff_not]
  omega

theorem opNo_tok {t : ST} {q i : Nat} (h : opPrec t = i) (hi : i ≠ 0) (hq : q ≤ i) : opNo q t = false := by
  simp only [opNo, h, Bool.or_eq_false_iff, beq_eq_false_iff_ne, ne_eq, decide_eq_false_iff_not]
  omega

theorem expressionStep_no (E : Env) (q : Nat) (a : Exp) : NoAt (opNo q) (expressionStep E q a) := by
  noat_alts
  refine ⟨binary_no (by decide) (by decide), binary_no (by decide) (by decide), binary_no (by decide) (by decide), binary_no (by decide) (by decide),
    binary_no (by decide) (by decide), ?_, binary_no (by decide) (by decide), binary_no (by decide) (by decide), binary_no (by decide) (by decide),
    binary_no (by decide) (by decide), binary_no (by decide) (by decide), binary_no (by decide) (by decide), ?_, ?_, binary_no (by decide) (by decide), by simp⟩
  · exact .prec fun hq => .bind (.tok (opNo_tok rfl (by decide) hq))
  · exact .prec fun hq => .optBind (.bind (.tok (opNo_tok rfl (by decide) hq))) (.bind (.tok (opNo_tok rfl (by decide) hq)))
  · exact .prec fun hq => .optBind (.bind (.tok (opNo_tok (i := 3) rfl (by decide) (by omega)))) (.bind (.tok (opNo_tok rfl (by decide) hq)))

/-- The alternatives which need other tokens, when the next one is known. -/
theorem binary_skip {E : Env} {a : Exp} {q i j : Nat} {l : List (ST × BinOp)} {y : STok} {s : List STok} (h : ∀ x ∈ l, x.1 ≠ y.ty) :
    prec q i (binary E a (toks l) j) (y :: s) = [] := by
  unfold prec
  split
  · exact bind_nil (toks_neg (fun a ha => h _ ha rfl) s)
  · rfl

theorem step_skip {E : Env} {q i : Nat} {f : Option Unit → Str → P β} {t : ST} {y : STok} {s : List STok} (h : y.ty ≠ t)
    (h2 : y.ty ≠ .KW_MATCHES) :
    prec q i (matchesOpt E >>= fun m => tok t >>= fun x => f m x) (y :: s) = [] := by
  unfold prec
  split
  · show (opt _ >>= fun m => _) (y :: s) = []
    rw [bind_apply, opt_none (bind_nil (tok_neg h2 s))]
    simp [bind_nil (tok_neg h s)]
  · rfl

theorem inside_skip {E : Env} {a : Exp} {q : Nat} {y : STok} {s : List STok} (h : y.ty ≠ .KW_INSIDE) :
    prec q 10 (do
      let _ ← tok .KW_INSIDE
      let _ ← tok .LBRACE
      let _ ← sepBy .COMMA (valueRange E)
      let _ ← tok .RBRACE
      return .inside a : P Exp) (y :: s) = [] := by
  unfold prec
  split
  · exact bind_nil (tok_neg h s)
  · rfl

theorem expressionStep_plusColon {B : Rules} {n q : Nat} {a : Exp} {y : STok} {s : List STok} (h : PlusColon y s) :
    expressionStep (env B n) q a (y :: s) = [] := by
  obtain ⟨hy, y', s', rfl, hy'⟩ := h
  rw [expressionStep, alts_apply]
  simp only [List.flatMap_cons, List.flatMap_nil, List.append_nil, List.append_eq_nil_iff]
  have key : ∀ l : List (ST × BinOp), (∀ x ∈ l, x.1 ≠ .PLUS ∧ x.1 ≠ .MINUS) → ∀ x ∈ l, x.1 ≠ y.ty := by
    intro l hl x hx
    rcases hy with hy | hy <;> rw [hy]
    · exact (hl x hx).1
    · exact (hl x hx).2
  have hm : ∀ t, t ≠ .PLUS → t ≠ .MINUS → y.ty ≠ t := by
    intro t h1 h2 e
    rcases hy with hy | hy <;> rw [hy] at e
    · exact h1 e.symm
    · exact h2 e.symm
  refine ⟨binary_skip (key _ (by decide)), binary_skip (key _ (by decide)), ?_, binary_skip (key _ (by decide)), binary_skip (key _ (by decide)),
    inside_skip (hm _ (by decide) (by decide)), binary_skip (key _ (by decide)), binary_skip (key _ (by decide)), binary_skip (key _ (by decide)),
    binary_skip (key _ (by decide)), binary_skip (key _ (by decide)), binary_skip (key _ (by decide)),
    step_skip (hm _ (by decide) (by decide)) (hm _ (by decide) (by decide)), step_skip (hm _ (by decide) (by decide)) (hm _ (by decide) (by decide)),
    binary_skip (key _ (by decide))⟩
  unfold prec
  split
  · apply List.eq_nil_iff_forall_not_mem.2
    intro x hx
    obtain ⟨o, r, h1, h2⟩ := mem_bind.1 hx
    obtain ⟨z, e, -⟩ := mem_toks.1 h1
    have e := (List.cons.inj e).2
    simp only at e
    subst e
    have h3 : many (attributeInstance (env B n)) (y' :: s') = [([], y' :: s')] := many_none (bind_nil (tok_neg (by rw [hy']; decide) s'))
    rw [bind_apply, attributes, h3] at h2
    simp only [List.flatMap_cons, List.flatMap_nil, List.append_nil] at h2
    rw [bind_nil ((expression_eNo B n 14).cons (by rw [hy']; rfl))] at h2
    cases h2
  · rfl

theorem expressionStep_nil {B : Rules} {n q : Nat} {a : Exp} {R : List STok} (h : Ends q R) : expressionStep (env B n) q a R = [] := by
  cases R with
  | nil => exact (expressionStep_no _ _ _).nil
  | cons y s =>
    rcases h y s rfl with h | h | h
    · exact (expressionStep_no _ _ _).cons (by simp [opNo, h])
    · exact (expressionStep_no _ _ _).cons (by simp [opNo, h])
    · exact expressionStep_plusColon h

/-! ## Precedence -/

/-- The precedence of the alternative for a row of Table 11-2. -/
def rowPrec (r : Nat) : Nat := if r ≤ 2 then 16 else if r ≤ 7 then 18 - r else if r ≤ 13 then 17 - r else 16 - r

theorem row_op (o : BinOp) : opPrec (BinOp.ty o) = rowPrec (BinOp.row o) := by cases o <;> rfl

/-- The precedence of the right operand. -/
def nextPrec (o : BinOp) : Nat := if BinOp.row o = 15 then 1 else rowPrec (BinOp.row o) + 1

/-- The precedence an expression ends with. -/
def endPrec (e : SExp) : Nat := if e.row = 14 then 2 else if e.row = 15 then 1 else rowPrec e.row + 1

theorem toks_one {l : List (ST × α)} {y : STok} {a : α} (h : l.filterMap (fun x => if x.1 = y.ty then some x.2 else none) = [a]) (s : List STok) :
    toks l (y :: s) = [(a, s)] := by
  have : ∀ l : List (ST × α), toks l (y :: s) = (l.filterMap (fun x => if x.1 = y.ty then some x.2 else none)).map fun a => (a, s) := by
    intro l
    rw [toks, alts_apply]
    induction l with
    | nil => rfl
    | cons x l ih =>
      rw [List.map_cons, List.flatMap_cons, ih, List.filterMap_cons]
      by_cases hx : x.1 = y.ty
      · rw [if_pos hx, bind_apply, tok_pos hx.symm]
        simp [pure_apply]
      · rw [if_neg hx, bind_nil (tok_neg (fun e => hx e.symm) s)]
        rfl
  rw [this, h]; rfl

/-- What follows a binary operator. -/
def binRest (E : Env) (a : Exp) (o : BinOp) (q : Nat) : P Exp := attributes E >>= fun _ => E.expression q >>= fun b => pure (.bin a o b)

theorem binary_first {E : Env} {a t : Exp} {o : BinOp} {p i q : Nat} {l : List (ST × BinOp)} {y : STok} {s R : List STok}
    (hl : l.filterMap (fun x => if x.1 = y.ty then some x.2 else none) = [o]) (hp : p ≤ i) (h : First None' (binRest E a o q) s t R) :
    First None' (prec p i (binary E a (toks l) q)) (y :: s) t R := by
  unfold prec
  rw [if_pos hp]
  exact First.bindH (First.of_eq (toks_one hl s)) h

theorem step_bin {E : Env} {a t : Exp} {o : BinOp} {p : Nat} {y : STok} {s R : List STok} (hy : y.ty = BinOp.ty o)
    (hp : p ≤ rowPrec (BinOp.row o)) (h : First None' (binRest E a o (nextPrec o)) s t R) :
    First None' (expressionStep E p a) (y :: s) t R := by
  cases o <;> simp only [BinOp.ty] at hy <;> (
    repeat' first
      | refine First.orL (binary_first (by rw [hy]; rfl) hp h)
      | exact binary_first (by rw [hy]; rfl) hp h
      | refine First.orN (binary_skip (by rw [hy]; decide)) ?_
      | refine First.orN (inside_skip (by rw [hy]; decide)) ?_
      | refine First.orN (step_skip (by rw [hy]; decide) (by rw [hy]; decide)) ?_)

/-- What follows the question mark. -/
def condRest (E : Env) (a : Exp) : P Exp := do
  let _ ← attributes E
  let t ← E.expression 0
  let _ ← tok .COLON
  let e ← E.expression 2
  return .cond a false t e

theorem step_cond {E : Env} {a t : Exp} {p : Nat} {y : STok} {s R : List STok} (hy : y.ty = .QUESTIONMARK) (hp : p ≤ 2)
    (h : First None' (condRest E a) s t R) : First None' (expressionStep E p a) (y :: s) t R := by
  iterate 5 refine First.orN (binary_skip (by rw [hy]; decide)) ?_
  refine First.orN (inside_skip (by rw [hy]; decide)) ?_
  iterate 6 refine First.orN (binary_skip (by rw [hy]; decide)) ?_
  refine First.orN (step_skip (by rw [hy]; decide) (by rw [hy]; decide)) ?_
  refine First.orL ?_
  unfold prec
  rw [if_pos hp]
  exact First.bindH (First.of_eq (opt_none (bind_nil (tok_neg (by rw [hy]; decide) s)))) (First.bindH (First.tok hy s) h)

/-! ## The first token of a text -/

/-- The text is not empty, begins with no token of `N`, and not with `( *`. -/
def Begins (N : ST → Bool) (w : List STok) : Prop :=
  ∃ y s, w = y :: s ∧ N y.ty = false ∧ (y.ty = .LPAREN → ∃ z s', s = z :: s' ∧ z.ty ≠ .MUL)

theorem Begins.mono {N N' : ST → Bool} {w : List STok} (h : Begins N w) (hN : ∀ t, N' t = true → N t = true) : Begins N' w := by
  obtain ⟨y, s, rfl, h1, h2⟩ := h
  refine ⟨y, s, rfl, ?_, h2⟩
  cases h3 : N' y.ty with
  | false => rfl
  | true => rw [hN _ h3] at h1; cases h1

theorem Begins.append {N : ST → Bool} {w : List STok} (h : Begins N w) (v : List STok) : Begins N (w ++ v) := by
  obtain ⟨y, s, rfl, h1, h2⟩ := h
  refine ⟨y, s ++ v, rfl, h1, fun h => ?_⟩
  obtain ⟨z, s', rfl, h3⟩ := h2 h
  exact ⟨z, s' ++ v, rfl, h3⟩

theorem Begins.single {N : ST → Bool} {y : STok} {t : ST} {s : List STok} (hy : y.ty = t) (h1 : N t = false) (h2 : t ≠ .LPAREN) :
    Begins N (y :: s) := ⟨y, s, rfl, by rw [hy]; exact h1, fun h => (h2 (hy ▸ h)).elim⟩

theorem ident_id {i : Ident} {x : STok} (h : Ident.Tok i x) : isIdTok x.ty = true := by
  obtain ⟨-, h⟩ := h
  split at h
  · rw [h]; rfl
  · simp only [List.mem_cons, List.not_mem_nil, or_false] at h
    rcases h with h | h | h | h | h | h <;> · rw [h]; rfl

theorem id_pNo {t : ST} (h : isIdTok t = true) : pNo t = false := by cases t <;> first | rfl | cases h
theorem id_paren {t : ST} (h : isIdTok t = true) : t ≠ .LPAREN := by rintro rfl; cases h

theorem ident_begins {i : Ident} {x : STok} (h : Ident.Tok i x) (s : List STok) : Begins pNo (x :: s) :=
  .single rfl (id_pNo (ident_id h)) (id_paren (ident_id h))

theorem lit_begins : ∀ (l : Lit) (w : List STok), Lit.Toks l w → Begins pNo w
  | .time _, _, h => by obtain ⟨x, rfl, hx, -⟩ := h; exact .single hx rfl (by decide)
  | .unbased _, _, h => by obtain ⟨x, rfl, hx, -⟩ := h; exact .single hx rfl (by decide)
  | .str _, _, h => by obtain ⟨x, rfl, hx, -⟩ := h; exact .single hx rfl (by decide)
  | .integral (.basedWithSize _), _, h => by obtain ⟨x, rfl, hx, -⟩ := h; exact .single hx rfl (by decide)
  | .integral (.anyBased none _), _, h => by obtain ⟨x, rfl, hx, -⟩ := h; exact .single hx rfl (by decide)
  | .integral (.anyBased (some _) _), _, h => by
    obtain ⟨_, v, rfl, ⟨x, rfl, hx, -⟩, h2⟩ := h
    exact .single hx rfl (by decide)
  | .integral (.unsigned _), _, h => by obtain ⟨x, rfl, hx, -⟩ := h; exact .single hx rfl (by decide)
  | .real _, _, h => by
    obtain ⟨x, rfl, hx | hx, -⟩ := h
    · exact .single hx rfl (by decide)
    · exact .single hx rfl (by decide)
  | .null, _, h => by obtain ⟨x, rfl, hx⟩ := h; exact .single hx rfl (by decide)
  | .dolar, _, h => by obtain ⟨x, rfl, hx⟩ := h; exact .single hx rfl (by decide)

theorem unTok_eNo (o : UnOp) : eNo (UnOp.ty o) = false ∧ isUnTok (UnOp.ty o) = true ∧ UnOp.ty o ≠ .LPAREN := by
  cases o <;> exact ⟨rfl, rfl, by decide⟩

mutual
theorem exp_begins : ∀ (e : SExp) (w : List STok), e.Toks w → Begins eNo w
  | .prim p, w, h => by rw [SExp.Toks] at h; exact (prim_begins p w h).mono fun t => eNo_pNo
  | .un o p, w, h => by
    rw [SExp.Toks] at h
    obtain ⟨_, v, rfl, ⟨x, rfl, hx⟩, h2⟩ := h
    exact .single hx (unTok_eNo o).1 (unTok_eNo o).2.2
  | .bin a o b, w, h => by
    rw [SExp.Toks] at h
    obtain ⟨-, u, v, rfl, h1, -⟩ := h
    exact (exp_begins a u h1).append v
  | .cond c t e, w, h => by
    rw [SExp.Toks] at h
    obtain ⟨-, -, u, v, rfl, h1, -⟩ := h
    exact (exp_begins c u h1).append v
theorem prim_begins : ∀ (p : SPrim) (w : List STok), p.Toks w → Begins pNo w
  | .lit l, w, h => by rw [SPrim.Toks] at h; exact lit_begins l w h
  | .name i l, w, h => by
    rw [SPrim.Toks] at h
    obtain ⟨_, v, rfl, ⟨x, rfl, hx⟩, h2⟩ := h
    exact ident_begins hx v
  | .paren e, w, h => by
    rw [SPrim.Toks] at h
    obtain ⟨_, _, rfl, ⟨x, rfl, hx⟩, u, v, rfl, h1, -⟩ := h
    refine ⟨x, u ++ v, rfl, by rw [hx]; rfl, fun _ => ?_⟩
    obtain ⟨y, s, rfl, hy, -⟩ := exp_begins e u h1
    exact ⟨y, s ++ v, rfl, fun e => by rw [e] at hy; cases hy⟩
  | .cast p e, w, h => by
    rw [SPrim.Toks] at h
    obtain ⟨u, v, rfl, h1, -⟩ := h
    exact (prim_begins p u h1).append v
  | .bit p e, w, h => by
    rw [SPrim.Toks] at h
    obtain ⟨u, v, rfl, h1, -⟩ := h
    exact (prim_begins p u h1).append v
  | .part p k a b, w, h => by
    rw [SPrim.Toks] at h
    obtain ⟨u, v, rfl, h1, -⟩ := h
    exact (prim_begins p u h1).append v
  | .dot p i, w, h => by
    rw [SPrim.Toks] at h
    obtain ⟨u, v, rfl, h1, -⟩ := h
    exact (prim_begins p u h1).append v
  | .concat e l, w, h => by
    rw [SPrim.Toks] at h
    obtain ⟨_, v, rfl, ⟨x, rfl, hx⟩, h2⟩ := h
    exact .single hx rfl (by decide)
  | .repl n e l, w, h => by
    rw [SPrim.Toks] at h
    obtain ⟨_, v, rfl, ⟨x, rfl, hx⟩, h2⟩ := h
    exact .single hx rfl (by decide)
  | .pat e l, w, h => by
    rw [SPrim.Toks] at h
    obtain ⟨_, v, rfl, ⟨x, rfl, hx⟩, h2⟩ := h
    exact .single hx rfl (by decide)
  | .patKeys k l, w, h => by
    rw [SPrim.Toks] at h
    obtain ⟨_, v, rfl, ⟨x, rfl, hx⟩, h2⟩ := h
    exact .single hx rfl (by decide)
  | .sys f, w, h => by
    rw [SPrim.Toks] at h
    obtain ⟨x, rfl, hx, -⟩ := h
    exact .single hx rfl (by decide)
  | .sysCall f l, w, h => by
    rw [SPrim.Toks] at h
    obtain ⟨-, _, v, rfl, ⟨x, rfl, hx, -⟩, h2⟩ := h
    exact .single hx rfl (by decide)
  | .call p l, w, h => by
    rw [SPrim.Toks] at h
    obtain ⟨-, -, u, v, rfl, h1, -⟩ := h
    exact (prim_begins p u h1).append v
end

/-- No attribute instance in front of a text. -/
theorem attributes_none {E : Env} {N : ST → Bool} {w : List STok} (h : Begins N w) (R : List STok) : attributes E (w ++ R) = [([], w ++ R)] := by
  obtain ⟨y, s, rfl, -, h2⟩ := h
  refine many_none ?_
  rw [List.cons_append]
  by_cases hy : y.ty = .LPAREN
  · obtain ⟨z, s', rfl, hz⟩ := h2 hy
    unfold attributeInstance
    rw [bind_apply, tok_pos hy]
    simp only [List.flatMap_cons, List.flatMap_nil, List.append_nil, List.cons_append]
    exact bind_nil (tok_neg hz _)
  · exact bind_nil (tok_neg hy _)

end Verif.Sv
