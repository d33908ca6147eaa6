import Verif.Sv.Expr
import Verif.Spec.SvSem
/-!
# SystemVerilog expressions: the supported fragment, and the induction over the parse tree
-/
namespace Verif.Sv
open Verif Verif.Spec.Sv

/-- Keywords that the visitors write as identifiers into the AST, and the names that start with `$`. -/
def kwNames : List Str := [c! "this", c! "super", c! "local", c! "default", c! "void", c! "string", c! "chandle", c! "event",
  c! "signed", c! "bit", c! "logic", c! "reg", c! "byte", c! "shortint", c! "int", c! "longint", c! "integer", c! "time",
  c! "shortreal", c! "real", c! "realtime", c! "supply0", c! "supply1", c! "tri", c! "triand", c! "trior", c! "trireg", c! "tri0",
  c! "tri1", c! "uwire", c! "wire", c! "wand", c! "wor", c! "genvar"]

def isKw (s : Str) : Bool := s.head? == some '$' || kwNames.contains s

/-- A literal that is converted to a literal object. -/
def plainLit : Lit → Bool
  | .unbased _ | .str _ | .integral _ | .real _ => true
  | _ => false

/-- `leaf` reads the converted tokens as `A` reads the tokens (that the conversion of a token keeps its value is a property of its
own, C30 - C34), and concatenation is associative. -/
structure Agrees {V : Type} (A : Alg V) (leaf : Expr → V) : Prop where
  ident : ∀ i s, identStr i = .ok s → isKw s = false → leaf (.id none s) = A.ident i
  kw : ∀ s, isKw s = true → leaf (.id none s) = A.kw s
  lit : ∀ l e, plainLit l = true → visitLit l = .ok e → leaf e = A.lit l
  signed : leaf (.int none (.ofBig (.ofInt 1))) = A.flag true
  unsigned : leaf (.int none (.ofBig (.ofInt 0))) = A.flag false
  cat : ∀ l x, 2 ≤ l.length → A.concat [A.concat l, x] = A.concat (l ++ [x])

/-- The identifier can be converted, and is no keyword. -/
def okIdent (i : Ident) : Prop := ∃ s, identStr i = .ok s ∧ isKw s = false

def okLit (l : Lit) : Prop := (∃ e, visitLit l = .ok e) ∧ ∀ t, l ≠ .time t

def okDPrim : DPrim → Prop
  | .vec kw _ => isKw kw = true
  | .atom kw _ => isKw kw = true
  | .nonInt kw => isKw kw = true

mutual
/-- The fragment for which the conversion keeps the meaning: all tokens convert; none of the constructs that become
`HdlExprNotImplemented`, no `&&&`, `<->`, `min:typ:max`, clocking events, types of assignment patterns, calls with empty
parentheses (but `$f()`), names of array methods and `with` clauses, members of assignment targets, omitted last arguments,
`#(.name())`, empty and one-element concatenations, virtual interfaces, `[*]` and empty first dimensions of vectors. -/
def okExp : Exp → Prop
  | .prim p => okPrim p
  | .opAssign => False
  | .tagged => False
  | .unary _ p => okPrim p
  | .incDec _ _ l => okLVal l
  | .bin a o b => okExp a ∧ okExp b ∧ o ≠ .equiv
  | .tripleAnd _ _ _ _ => False
  | .inside _ => False
  | .cond c m t e => m = false ∧ okExp c ∧ okExp t ∧ okExp e
def okPrim : Prim → Prop
  | .lit l => okLit l
  | .path p => okPath p
  | .par m => okMTM m
  | .cast => False
  | .cast2 p e => okPrim p ∧ okExp e
  | .bitSel p e => okPrim p ∧ okExp e
  | .dot p i => okPrim p ∧ okIdent i
  | .index p r => okPrim p ∧ okARange r
  | .concat c => okConcat c
  | .streaming => False
  | .tfCall0 f => isKw f = true
  | .tfCall f args clk => isKw f = true ∧ okArgs true args ∧ clk = false
  | .tfCallT f t args clk => isKw f = true ∧ okDType t ∧ (args = [] ∨ okArgs true args) ∧ clk = false
  | .randomize => False
  | .randomize2 => False
  | .assig typed a => okPattern a ∧ typed = false
  | .typeRef t => okTRef t
  | .call0 p m w => okCallee0 p ∧ m = none ∧ w = false
  | .call p m args w => okPrim p ∧ okArgs true args ∧ m = none ∧ w = false
  | .methodNoArgs _ _ => False
  | .callWith _ _ _ => False
def okCallee0 : Prim → Prop
  | .tfCall0 f => isKw f = true
  | _ => False
def okMTM : MTM → Prop
  | .one e => okExp e
  | .three _ _ _ => False
def okARange : ARange → Prop
  | .one e => okExp e
  | .range a b => okExp a ∧ okExp b
  | .plus a b => okExp a ∧ okExp b
  | .minus a b => okExp a ∧ okExp b
def okConcat : Concat → Prop
  | .list l => okExps l ∧ 2 ≤ l.length
  | .repl n (.list l) => okExp n ∧ okExps l ∧ 1 ≤ l.length
  | .repl n c => okExp n ∧ okConcat c
def okExps : List Exp → Prop
  | [] => True
  | e :: l => okExp e ∧ okExps l
def okPath : Path → Prop
  | .mk _ h items => okPathItems items ∧ (h = .items → items ≠ [])
def okPathItems : List PathItem → Prop
  | [] => True
  | i :: l => okPathItem i ∧ okPathItems l
def okPathItem : PathItem → Prop
  | .mk i p => okIdent i ∧ okPVA p
def okPVA : PVA → Prop
  | .none => True
  | .ordered l => okPExprs l
  | .named l => okNamedPs l
def okPExprs : List PExpr → Prop
  | [] => True
  | e :: l => okPExpr e ∧ okPExprs l
def okPExpr : PExpr → Prop
  | .mtm m => okMTM m
  | .type t => okDType t
def okNamedPs : List NamedP → Prop
  | [] => True
  | e :: l => okNamedP e ∧ okNamedPs l
def okNamedP : NamedP → Prop
  | .empty _ => False
  | .val i e => okIdent i ∧ okPExpr e
def okDType : DType → Prop
  | .string => True
  | .chandle => True
  | .virtual _ _ _ => False
  | .event => True
  | .prim (.vec kw _) [] => isKw kw = true
  | .prim (.vec kw _) (.range r :: l) => isKw kw = true ∧ okARange r ∧ okVDims l
  | .prim (.vec kw _) (.type t :: l) => isKw kw = true ∧ okDType t ∧ okVDims l
  | .prim (.vec _ _) _ => False
  | .prim p l => okDPrim p ∧ okVDims l
  | .enum _ => False
  | .struct _ => False
  /- the code takes `c #(null, x) [3:0]` for a vector type without width -/
  | .path p l => okPath p ∧ okVDims l ∧ (l = [] ∨ ∀ e, visitPath p = .ok e → isOpenWire e = false)
  | .typeRef t => okTRef t
def okVDims : List VDim → Prop
  | [] => True
  | d :: l => okVDim d ∧ okVDims l
def okVDim : VDim → Prop
  | .empty => True
  | .star => False
  | .type t => okDType t
  | .range r => okARange r
def okTRef : TRef → Prop
  | .expr e => okExp e
  | .type t => okDType t
def okPattern : Pattern → Prop
  | .list l => okExps l
  | .keyed l => okKVs l
  | .repl _ _ => False
def okKVs : List KV → Prop
  | [] => True
  | e :: l => okKV e ∧ okKVs l
def okKV : KV → Prop
  | .mk k e => okKey k ∧ okExp e
def okKey : Key → Prop
  | .ident i => okIdent i
  | .dflt => True
  | .intType => False
  | .nonIntType => False
  | .path p => okPath p
  | .expr e => okExp e
def okLVal : LVal → Prop
  | .brace l => okLVals l ∧ l ≠ []
  | .hier h => okHSel h
  | .pattern => False
  | .streaming => False
def okLVals : List LVal → Prop
  | [] => True
  | e :: l => okLVal e ∧ okLVals l
def okHSel : HSel → Prop
  | .mk p bits ms s => okPath p ∧ okExps bits ∧ ms = [] ∧ okSel s
def okSel : Sel → Prop
  | .none => True
  | .range a b => okExp a ∧ okExp b
  | .plus a b => okExp a ∧ okExp b
  | .minus a b => okExp a ∧ okExp b
/-- `expecting`: a value is expected (the list starts or a comma was read). -/
def okArgs (expecting : Bool) : List Arg → Prop
  | [] => expecting = false
  | .comma :: l => okArgs true l
  | .expr e :: l => expecting = true ∧ okExp e ∧ okArgs false l
  | .namedEmpty i :: l => expecting = true ∧ okIdent i ∧ okArgs false l
  | .named i e :: l => expecting = true ∧ okIdent i ∧ okExp e ∧ okArgs false l
end

variable {V : Type} {A : Alg V} {leaf : Expr → V}

theorem astEval_push {e : Expr} {v : V} (h : astEval A leaf e = some v) : e.push = [e] := by
  cases e <;> first | rfl | (simp [astEval] at h)

theorem astEval_append {e x : Expr} {v : V} (o : OpType) (h : astEval A leaf e = some v) : appendExpr e o x = .mkBin none e o x := by
  cases e <;> first | rfl | (simp [astEval] at h)

theorem astEval_bin {a b : Expr} {va vb : V} (ha : astEval A leaf a = some va) (hb : astEval A leaf b = some vb) (o : OpType) :
    astEval A leaf (.mkBin none a o b) = opMeaning A o [va, vb] := by
  simp [Expr.mkBin, astEval_push ha, astEval_push hb, astEval, astEvals, ha, hb]

theorem astEval_un {a : Expr} {va : V} (ha : astEval A leaf a = some va) (o : OpType) :
    astEval A leaf (.mkUn none o a) = opMeaning A o [va] := by
  simp [Expr.mkUn, astEval, astEvals, ha]

theorem astEval_ternary {c t e : Expr} {vc vt ve : V} (hc : astEval A leaf c = some vc) (ht : astEval A leaf t = some vt)
    (he : astEval A leaf e = some ve) : astEval A leaf (.mkTernary none c t e) = some (A.cond vc vt ve) := by
  simp [Expr.mkTernary, astEval_push he, astEval, astEvals, hc, ht, he, opMeaning]

theorem astEval_call {f : Expr} {l : List Expr} {vf : V} {vl : List V} (hf : astEval A leaf f = some vf)
    (hl : astEvals A leaf l = some vl) : astEval A leaf (.mkCall none f l) = some (A.call vf vl) := by
  simp [Expr.mkCall, astEval, astEvals, hf, hl, opMeaning]

theorem astEval_param {f : Expr} {l : List Expr} {vf : V} {vl : List V} (hf : astEval A leaf f = some vf)
    (hl : astEvals A leaf l = some vl) : astEval A leaf (.mkParam none f l) = some (A.param vf vl) := by
  simp [Expr.mkParam, astEval, astEvals, hf, hl, opMeaning]

theorem astEvals_cons {e : Expr} {l : List Expr} {v : V} {vl : List V} (h : astEval A leaf e = some v)
    (hl : astEvals A leaf l = some vl) : astEvals A leaf (e :: l) = some (v :: vl) := by
  simp [astEvals, h, hl]

theorem reduce_eval (hA : Agrees A leaf) : ∀ (l : List Expr) (vl : List V) (r : Expr) (ws : List V), astEvals A leaf l = some vl →
    2 ≤ ws.length → astEval A leaf r = some (A.concat ws) →
    astEval A leaf (reduceE .CONCAT r l) = some (A.concat (ws ++ vl))
  | [], vl, r, ws, hl, _, hr => by
    simp only [astEvals, Option.some.injEq] at hl; subst hl; simpa [reduceE] using hr
  | e :: l, vl, r, ws, hl, hw, hr => by
    simp only [astEvals] at hl
    cases h1 : astEval A leaf e with
    | none => simp [h1] at hl
    | some v =>
      cases h2 : astEvals A leaf l with
      | none => simp [h1, h2] at hl
      | some vs =>
        simp [h1, h2] at hl; subst hl
        simp only [reduceE]
        rw [astEval_append _ hr, reduce_eval hA l vs _ (ws ++ [v]) h2 (by simp; omega) ?_]
        · simp
        · rw [astEval_bin hr h1]; simp [opMeaning, hA.cat ws v hw]

/-- A concatenation of at least two parts. -/
theorem reduce_eval2 (hA : Agrees A leaf) {l : List Expr} {vl : List V} (h : astEvals A leaf l = some vl) (h2 : 2 ≤ l.length) :
    astEval A leaf (reduceE .CONCAT .null l) = some (A.concat vl) := by
  match l, h2 with
  | a :: b :: l, _ =>
    simp only [astEvals] at h
    cases h1 : astEval A leaf a with
    | none => simp [h1] at h
    | some va =>
      cases h3 : astEval A leaf b with
      | none => simp [h1, h3] at h
      | some vb =>
        cases h4 : astEvals A leaf l with
        | none => simp [h1, h3, h4] at h
        | some vs =>
          simp [h1, h3, h4] at h; subst h
          have : reduceE .CONCAT .null (a :: b :: l) = reduceE .CONCAT (.mkBin none a .CONCAT b) l := by
            simp only [reduceE]
            rw [show appendExpr .null .CONCAT a = a from rfl, astEval_append _ h1]
          rw [this, reduce_eval hA l vs _ [va, vb] h4 (by simp) (by rw [astEval_bin h1 h3]; rfl)]
          rfl

theorem ident_eval (hA : Agrees A leaf) {i : Ident} (h : okIdent i) :
    ∃ e, visitIdent i = .ok e ∧ astEval A leaf e = some (A.ident i) := by
  obtain ⟨s, h1, h2⟩ := h
  exact ⟨.id none s, by simp [visitIdent, h1, bind, Except.bind, pure, Except.pure], by simp [astEval, hA.ident i s h1 h2]⟩

theorem kw_eval (hA : Agrees A leaf) {s : Str} (h : isKw s = true) : astEval A leaf (.id none s) = some (A.kw s) := by
  simp [astEval, hA.kw s h]

theorem sign_eval (hA : Agrees A leaf) (s : Sign) : astEval A leaf (signE s) = some (evSign A s) := by
  cases s <;> simp [signE, astEval, evSign, hA.signed, hA.unsigned]

theorem lit_eval (hA : Agrees A leaf) {l : Lit} (h : okLit l) :
    ∃ e, visitLit l = .ok e ∧ astEval A leaf e = some (evLit A l) := by
  obtain ⟨⟨e, he⟩, ht⟩ := h
  refine ⟨e, he, ?_⟩
  have hl := hA.lit l e
  cases l with
  | time t => exact absurd rfl (ht t)
  | unbased t =>
    have hl := hl rfl he
    simp only [visitLit] at he
    cases h1 : svUnbased t with
    | error x => rw [h1] at he; cases he
    | ok s => rw [h1] at he; cases he; simp [astEval, evLit, hl]
  | str t =>
    have hl := hl rfl he
    simp only [visitLit] at he
    cases h1 : svString t with
    | error x => rw [h1] at he; cases he
    | ok s => rw [h1] at he; cases he; simp [astEval, evLit, hl]
  | integral t =>
    have hl := hl rfl he
    simp only [visitLit] at he
    cases h1 : svIntegral t with
    | error x => rw [h1] at he; cases he
    | ok s => rw [h1] at he; cases he; simp [astEval, evLit, hl]
  | real t =>
    have hl := hl rfl he
    cases he; simp [astEval, evLit, hl]
  | null => cases he; simp [astEval, evLit]
  | this => cases he; simp [astEval, evLit, hA.kw _ (show isKw (c! "this") = true by decide)]
  | dolar => cases he; simp [astEval, evLit, hA.kw _ (show isKw (c! "$") = true by decide)]

/-- `appendExpr` to an optional left part. -/
def evalsTo (A : Alg V) (leaf : Expr → V) (e : Expr) : Option V → Prop
  | none => e = .null
  | some v => astEval A leaf e = some v

theorem append_eval {sel e : Expr} {o : Option V} {v : V} (hs : evalsTo A leaf sel o) (he : astEval A leaf e = some v) :
    astEval A leaf (appendExpr sel .DOUBLE_COLON e) = some (scope A o v) := by
  cases o with
  | none => cases hs; exact he
  | some w => rw [astEval_append _ hs, astEval_bin hs he]; rfl

theorem pathHead_eval (hA : Agrees A leaf) (loc : Bool) (h : PathHead) :
    evalsTo A leaf (visitPathHead loc h) (evPathHead A loc h) := by
  have hl : evalsTo A leaf (if loc then .id none (c! "local") else .null) (if loc then some (A.kw (c! "local")) else none) := by
    cases loc
    · rfl
    · exact kw_eval hA (by decide)
  cases h with
  | root => exact append_eval hl (kw_eval hA (by decide))
  | unit => exact append_eval hl (kw_eval hA (by decide))
  | this => exact append_eval hl (kw_eval hA (by decide))
  | super => exact append_eval hl (kw_eval hA (by decide))
  | thisSuper =>
    have h1 := append_eval hl (kw_eval hA (show isKw (c! "this") = true by decide))
    show astEval A leaf (appendExpr _ .DOT _) = some _
    rw [astEval_append _ h1, astEval_bin h1 (kw_eval hA (by decide))]; rfl
  | items => exact hl

theorem wire_eval (hA : Agrees A leaf) {kw : Str} (hk : isKw kw = true) {w : Expr} {v : V} (hw : astEval A leaf w = some v) (s : Sign) :
    astEval A leaf (mkWireT (.id none kw) w s) = some (A.param (A.kw kw) [v, evSign A s]) := by
  unfold mkWireT
  exact astEval_param (kw_eval hA hk) (astEvals_cons hw (astEvals_cons (sign_eval hA s) rfl))

theorem dprim_eval (hA : Agrees A leaf) (p : DPrim) (h : okDPrim p) :
    (∀ kw s, p ≠ .vec kw s) → isOpenWire (visitDPrim p) = false ∧
      ∀ l, astEval A leaf (visitDPrim p) = some (evDType A (.prim p [])) ∧
        evDType A (.prim p l) = evVDims A (evDType A (.prim p [])) l := by
  intro hv
  cases p with
  | vec kw s => exact absurd rfl (hv kw s)
  | atom kw s =>
    have hk := kw_eval hA h
    cases s
    · exact ⟨rfl, fun l => ⟨hk, by simp [evDType, evVDims]⟩⟩
    all_goals
      refine ⟨rfl, fun l => ⟨?_, by simp [evDType, evVDims]⟩⟩
      simp only [visitDPrim]
      rw [astEval_param hk (astEvals_cons (by rw [astEval_bin (kw_eval hA (by decide)) (sign_eval hA _)]; rfl) rfl)]
      simp [evDType, evVDims]
  | nonInt kw =>
    have hk := kw_eval hA h
    exact ⟨rfl, fun l => ⟨hk, by simp [evDType, evVDims]⟩⟩

theorem mkDim_eval {t d : Expr} {vt vd : V} (ht : astEval A leaf t = some vt) (hd : astEval A leaf d = some vd) :
    astEval A leaf (mkDim t d) = some (A.index vt vd) := by
  have : mkDim t d = .mkBin none t .INDEX d := by cases d <;> first | rfl | (simp [astEval] at hd)
  rw [this, astEval_bin ht hd]; rfl

theorem fillWidth_eq {kw : Str} {s : Sign} {d : Expr} {v : V} (hd : astEval A leaf d = some v) :
    fillWidth d (visitDPrim (.vec kw s)) = mkWireT (.id none kw) d s := by
  cases d <;> first | rfl | (simp [astEval] at hd)

/-- Two visited parts joined by an operator. -/
theorem bin_step {a b : Except Exc Expr} {ea eb : Expr} {va vb v : V} {o : OpType} (ha : a = .ok ea) (hb : b = .ok eb)
    (ha2 : astEval A leaf ea = some va) (hb2 : astEval A leaf eb = some vb) (ho : opMeaning A o [va, vb] = some v) :
    ∃ e, (do let x ← a; let y ← b; pure (Expr.mkBin none x o y)) = .ok e ∧ astEval A leaf e = some v := by
  subst ha hb
  exact ⟨_, rfl, by rw [astEval_bin ha2 hb2]; exact ho⟩

theorem append_step {a b : Except Exc Expr} {ea eb : Expr} {va vb v : V} {o : OpType} (ha : a = .ok ea) (hb : b = .ok eb)
    (ha2 : astEval A leaf ea = some va) (hb2 : astEval A leaf eb = some vb) (ho : opMeaning A o [va, vb] = some v) :
    ∃ e, (do let x ← a; let y ← b; pure (appendExpr x o y)) = .ok e ∧ astEval A leaf e = some v := by
  subst ha hb
  exact ⟨_, rfl, by rw [astEval_append _ ha2, astEval_bin ha2 hb2]; exact ho⟩

theorem un_step {a : Except Exc Expr} {ea : Expr} {va v : V} {o : OpType} (ha : a = .ok ea)
    (ha2 : astEval A leaf ea = some va) (ho : opMeaning A o [va] = some v) :
    ∃ e, (do let x ← a; pure (Expr.mkUn none o x)) = .ok e ∧ astEval A leaf e = some v := by
  subst ha
  exact ⟨_, rfl, by rw [astEval_un ha2]; exact ho⟩

theorem cons_step {a : Except Exc Expr} {b : Except Exc (List Expr)} {ea : Expr} {eb : List Expr} {va : V} {vb : List V}
    (ha : a = .ok ea) (hb : b = .ok eb) (ha2 : astEval A leaf ea = some va) (hb2 : astEvals A leaf eb = some vb) :
    ∃ e, (do let x ← a; let y ← b; pure (x :: y)) = .ok e ∧ astEvals A leaf e = some (va :: vb) := by
  subst ha hb
  exact ⟨_, rfl, astEvals_cons ha2 hb2⟩

theorem ne_null {e : Expr} {v : V} (h : astEval A leaf e = some v) : e ≠ .null := by
  rintro rfl; simp [astEval] at h

mutual
theorem exp_eval (hA : Agrees A leaf) : ∀ x : Exp, okExp x → ∃ e, visitExp x = .ok e ∧ astEval A leaf e = some (evExp A x)
  | .prim p, h => by
    obtain ⟨e, h1, h2⟩ := prim_eval hA p (by simpa only [okExp] using h)
    exact ⟨e, by simpa only [visitExp] using h1, by simpa only [evExp] using h2⟩
  | .opAssign, h => by simp [okExp] at h
  | .tagged, h => by simp [okExp] at h
  | .unary o p, h => by
    obtain ⟨e, h1, h2⟩ := prim_eval hA p (by simpa only [okExp] using h)
    simp only [visitExp, evExp]
    exact un_step h1 h2 (by cases o <;> rfl)
  | .incDec pre inc l, h => by
    obtain ⟨e, h1, h2⟩ := lval_eval hA l (by simpa only [okExp] using h)
    simp only [visitExp, evExp]
    exact un_step h1 h2 (by cases pre <;> cases inc <;> rfl)
  | .bin a o b, h => by
    simp only [okExp] at h
    obtain ⟨ea, ha1, ha2⟩ := exp_eval hA a h.1
    obtain ⟨eb, hb1, hb2⟩ := exp_eval hA b h.2.1
    simp only [visitExp, evExp]
    exact bin_step ha1 hb1 ha2 hb2 (by have := h.2.2; cases o <;> first | rfl | exact absurd rfl this)
  | .tripleAnd _ _ _ _, h => by simp [okExp] at h
  | .inside _, h => by simp [okExp] at h
  | .cond c m t e, h => by
    simp only [okExp] at h
    obtain ⟨rfl, hc, ht, he⟩ := h
    obtain ⟨ec, hc1, hc2⟩ := exp_eval hA c hc
    obtain ⟨et, ht1, ht2⟩ := exp_eval hA t ht
    obtain ⟨ee, he1, he2⟩ := exp_eval hA e he
    refine ⟨_, by simp only [visitExp, hc1, ht1, he1, bind, Except.bind, pure, Except.pure]; rfl, ?_⟩
    rw [astEval_ternary hc2 ht2 he2]; simp only [evExp]
theorem prim_eval (hA : Agrees A leaf) : ∀ x : Prim, okPrim x → ∃ e, visitPrim x = .ok e ∧ astEval A leaf e = some (evPrim A x)
  | .lit l, h => by
    simp only [okPrim] at h; simp only [visitPrim, evPrim]; exact lit_eval hA h
  | .path p, h => by
    simp only [okPrim] at h; simp only [visitPrim, evPrim]; exact path_eval hA p h
  | .par m, h => by
    simp only [okPrim] at h; simp only [visitPrim, evPrim]; exact mtm_eval hA m h
  | .cast, h => by simp [okPrim] at h
  | .cast2 p x, h => by
    simp only [okPrim] at h
    obtain ⟨ea, ha1, ha2⟩ := prim_eval hA p h.1
    obtain ⟨eb, hb1, hb2⟩ := exp_eval hA x h.2
    simp only [visitPrim, evPrim]
    exact bin_step ha1 hb1 ha2 hb2 rfl
  | .bitSel p x, h => by
    simp only [okPrim] at h
    obtain ⟨ea, ha1, ha2⟩ := prim_eval hA p h.1
    obtain ⟨eb, hb1, hb2⟩ := exp_eval hA x h.2
    simp only [visitPrim, evPrim]
    exact append_step ha1 hb1 ha2 hb2 rfl
  | .dot p i, h => by
    simp only [okPrim] at h
    obtain ⟨ea, ha1, ha2⟩ := prim_eval hA p h.1
    obtain ⟨eb, hb1, hb2⟩ := ident_eval hA h.2
    simp only [visitPrim, evPrim]
    exact append_step ha1 hb1 ha2 hb2 rfl
  | .index p r, h => by
    simp only [okPrim] at h
    obtain ⟨ea, ha1, ha2⟩ := prim_eval hA p h.1
    obtain ⟨eb, hb1, hb2⟩ := arange_eval hA r h.2
    simp only [visitPrim, evPrim]
    exact append_step ha1 hb1 ha2 hb2 rfl
  | .concat c, h => by
    simp only [okPrim] at h; simp only [visitPrim, evPrim]; exact concat_eval hA c h
  | .streaming, h => by simp [okPrim] at h
  | .tfCall0 f, h => by
    simp only [okPrim] at h; simp only [visitPrim, evPrim]
    exact ⟨_, rfl, astEval_call (kw_eval hA h) rfl⟩
  | .tfCall f args clk, h => by
    simp only [okPrim] at h
    obtain ⟨hf, ha, rfl⟩ := h
    obtain ⟨el, h1, h2⟩ := args_eval hA args ha
    refine ⟨_, by simp only [visitPrim, h1, bind, Except.bind, pure, Except.pure]; rfl, ?_⟩
    rw [astEval_call (kw_eval hA hf) h2]; simp only [evPrim]
  | .tfCallT f t args clk, h => by
    simp only [okPrim] at h
    obtain ⟨hf, ht, ha, rfl⟩ := h
    obtain ⟨et, ht1, ht2⟩ := dtype_eval hA t ht
    rcases ha with rfl | ha
    · refine ⟨_, by simp only [visitPrim, ht1, visitArgs, bind, Except.bind, pure, Except.pure]; rfl, ?_⟩
      rw [astEval_call (kw_eval hA hf) (astEvals_cons ht2 rfl)]; simp only [evPrim]
    · obtain ⟨el, h1, h2⟩ := args_eval hA args ha
      refine ⟨_, by simp only [visitPrim, ht1, h1, bind, Except.bind, pure, Except.pure]; rfl, ?_⟩
      rw [astEval_call (kw_eval hA hf) (astEvals_cons ht2 h2)]
      cases args with
      | nil => simp [okArgs] at ha
      | cons a l => simp only [evPrim]
  | .randomize, h => by simp [okPrim] at h
  | .randomize2, h => by simp [okPrim] at h
  | .assig typed a, h => by
    simp only [okPrim] at h
    obtain ⟨h, rfl⟩ := h
    simp only [visitPrim, evPrim]; exact pattern_eval hA a h
  | .typeRef t, h => by
    simp only [okPrim] at h; simp only [visitPrim, evPrim]; exact tref_eval hA t h
  | .call0 p m w, h => by
    simp only [okPrim] at h
    obtain ⟨h, rfl, rfl⟩ := h
    cases p with
    | tfCall0 f =>
      simp only [okCallee0] at h
      refine ⟨.mkCall none (.id none f) [], by simp only [visitPrim], ?_⟩
      rw [astEval_call (kw_eval hA h) rfl]; simp only [evPrim]
    | _ => simp [okCallee0] at h
  | .call p m args w, h => by
    simp only [okPrim] at h
    obtain ⟨hp, ha, rfl, rfl⟩ := h
    obtain ⟨ep, hp1, hp2⟩ := prim_eval hA p hp
    obtain ⟨el, h1, h2⟩ := args_eval hA args ha
    refine ⟨_, by simp only [visitPrim, hp1, h1, bind, Except.bind, pure, Except.pure]; rfl, ?_⟩
    rw [astEval_call hp2 h2]; simp only [evPrim]
  | .methodNoArgs _ _, h => by simp [okPrim] at h
  | .callWith _ _ _, h => by simp [okPrim] at h
theorem mtm_eval (hA : Agrees A leaf) : ∀ x : MTM, okMTM x → ∃ e, visitMTM x = .ok e ∧ astEval A leaf e = some (evMTM A x)
  | .one e, h => by
    simp only [okMTM] at h; simp only [visitMTM, evMTM]; exact exp_eval hA e h
  | .three _ _ _, h => by simp [okMTM] at h
theorem arange_eval (hA : Agrees A leaf) : ∀ x : ARange, okARange x →
    ∃ e, visitARange x = .ok e ∧ astEval A leaf e = some (evARange A x)
  | .one e, h => by
    simp only [okARange] at h; simp only [visitARange, evARange]; exact exp_eval hA e h
  | .range a b, h => by
    simp only [okARange] at h
    obtain ⟨ea, ha1, ha2⟩ := exp_eval hA a h.1
    obtain ⟨eb, hb1, hb2⟩ := exp_eval hA b h.2
    simp only [visitARange, evARange]
    exact bin_step ha1 hb1 ha2 hb2 rfl
  | .plus a b, h => by
    simp only [okARange] at h
    obtain ⟨ea, ha1, ha2⟩ := exp_eval hA a h.1
    obtain ⟨eb, hb1, hb2⟩ := exp_eval hA b h.2
    simp only [visitARange, evARange]
    exact bin_step ha1 hb1 ha2 hb2 rfl
  | .minus a b, h => by
    simp only [okARange] at h
    obtain ⟨ea, ha1, ha2⟩ := exp_eval hA a h.1
    obtain ⟨eb, hb1, hb2⟩ := exp_eval hA b h.2
    simp only [visitARange, evARange]
    exact bin_step ha1 hb1 ha2 hb2 rfl
theorem concat_eval (hA : Agrees A leaf) : ∀ x : Concat, okConcat x →
    ∃ e, visitConcat x = .ok e ∧ astEval A leaf e = some (evConcat A x)
  | .list l, h => by
    simp only [okConcat] at h
    obtain ⟨el, h1, h2, h3⟩ := exps_eval hA l h.1
    refine ⟨_, by simp only [visitConcat, h1, bind, Except.bind, pure, Except.pure]; rfl, ?_⟩
    rw [reduce_eval2 hA h2 (by omega)]; simp only [evConcat]
  | .repl n (.list []), h => by simp [okConcat] at h
  | .repl n (.list [e]), h => by
    simp only [okConcat, okExps] at h
    obtain ⟨en, hn1, hn2⟩ := exp_eval hA n h.1
    obtain ⟨ee, he1, he2⟩ := exp_eval hA e h.2.1.1
    refine ⟨.mkBin none en .REPL_CONCAT ee, by simp [visitConcat, visitExps, hn1, he1, bind, Except.bind, pure, Except.pure, reduceE, appendExpr], ?_⟩
    rw [astEval_bin hn2 he2]; simp [opMeaning, evConcat]
  | .repl n (.list (a :: b :: l)), h => by
    simp only [okConcat] at h
    obtain ⟨en, hn1, hn2⟩ := exp_eval hA n h.1
    obtain ⟨el, h1, h2, h3⟩ := exps_eval hA (a :: b :: l) h.2.1
    refine ⟨_, by simp only [visitConcat, hn1, h1, bind, Except.bind, pure, Except.pure]; rfl, ?_⟩
    rw [astEval_bin hn2 (reduce_eval2 hA h2 (by simp at h3; omega))]; simp [opMeaning, evConcat]
  | .repl n (.repl m c), h => by
    simp only [okConcat] at h
    obtain ⟨en, hn1, hn2⟩ := exp_eval hA n h.1
    obtain ⟨ec, hc1, hc2⟩ := concat_eval hA (.repl m c) h.2
    rw [visitConcat]
    have : evConcat A (.repl n (.repl m c)) = A.repl (evExp A n) (evConcat A (.repl m c)) := by
      conv_lhs => unfold evConcat
    rw [this]
    exact bin_step hn1 hc1 hn2 hc2 rfl
theorem exps_eval (hA : Agrees A leaf) : ∀ x : List Exp, okExps x →
    ∃ e, visitExps x = .ok e ∧ astEvals A leaf e = some (evExps A x) ∧ e.length = x.length
  | [], _ => ⟨[], by simp only [visitExps], by simp only [astEvals, evExps], rfl⟩
  | e :: l, h => by
    simp only [okExps] at h
    obtain ⟨ea, ha1, ha2⟩ := exp_eval hA e h.1
    obtain ⟨eb, hb1, hb2, hb3⟩ := exps_eval hA l h.2
    refine ⟨_, by simp only [visitExps, ha1, hb1, bind, Except.bind, pure, Except.pure]; rfl, ?_, ?_⟩
    · rw [astEvals_cons ha2 hb2]; simp only [evExps]
    · simp [hb3]
theorem path_eval (hA : Agrees A leaf) : ∀ x : Path, okPath x → ∃ e, visitPath x = .ok e ∧ astEval A leaf e = some (evPath A x)
  | .mk loc hd items, h => by
    simp only [okPath] at h
    obtain ⟨e, h1, h2⟩ := pathItems_eval hA items h.1 _ _ (pathHead_eval hA loc hd)
    have h3 : (evPathItems A (evPathHead A loc hd) items).isSome := by
      cases items with
      | nil =>
        cases hd with
        | items => exact absurd rfl (h.2 rfl)
        | _ => simp [evPathItems, evPathHead]
      | cons i l =>
        have : ∀ (l : List PathItem) (v : V), (evPathItems A (some v) l).isSome := by
          intro l
          induction l with
          | nil => intro v; simp [evPathItems]
          | cons i l ih => intro v; simp only [evPathItems]; exact ih _
        simp only [evPathItems]; exact this l _
    obtain ⟨v, hv⟩ := Option.isSome_iff_exists.1 h3
    rw [hv] at h2
    refine ⟨e, ?_, ?_⟩
    · simp only [visitPath, h1, bind, Except.bind]
      have := ne_null h2
      cases e <;> first | rfl | exact absurd rfl this
    · simp only [evPath, hv, argVal]; exact h2
theorem pathItems_eval (hA : Agrees A leaf) : ∀ x : List PathItem, okPathItems x → ∀ (sel : Expr) (s : Option V), evalsTo A leaf sel s →
    ∃ e, visitPathItems sel x = .ok e ∧ evalsTo A leaf e (evPathItems A s x)
  | [], _, sel, s, hs => ⟨sel, by simp only [visitPathItems], by simpa only [evPathItems] using hs⟩
  | i :: l, h, sel, s, hs => by
    simp only [okPathItems] at h
    obtain ⟨e, h1, h2⟩ := pathItem_eval hA i h.1 sel s hs
    obtain ⟨e2, h3, h4⟩ := pathItems_eval hA l h.2 e (some (evPathItem A s i)) h2
    exact ⟨e2, by simp only [visitPathItems, h1, bind, Except.bind]; exact h3, by simpa only [evPathItems] using h4⟩
theorem pathItem_eval (hA : Agrees A leaf) : ∀ x : PathItem, okPathItem x → ∀ (sel : Expr) (s : Option V), evalsTo A leaf sel s →
    ∃ e, visitPathItem sel x = .ok e ∧ astEval A leaf e = some (evPathItem A s x)
  | .mk i p, h, sel, s, hs => by
    simp only [okPathItem] at h
    obtain ⟨ei, hi1, hi2⟩ := ident_eval hA h.1
    obtain ⟨e, h1, h2⟩ := pva_eval hA p h.2 _ _ (append_eval hs hi2)
    exact ⟨e, by simp only [visitPathItem, hi1, bind, Except.bind]; exact h1, by simpa only [evPathItem] using h2⟩
theorem pva_eval (hA : Agrees A leaf) : ∀ x : PVA, okPVA x → ∀ (e : Expr) (v : V), astEval A leaf e = some v →
    ∃ r, visitPVA e x = .ok r ∧ astEval A leaf r = some (evPVA A v x)
  | .none, _, e, v, hv => ⟨e, by simp only [visitPVA], by simpa only [evPVA] using hv⟩
  | .ordered l, h, e, v, hv => by
    simp only [okPVA] at h
    obtain ⟨el, h1, h2⟩ := pexprs_eval hA l h
    refine ⟨_, by simp only [visitPVA, h1, bind, Except.bind, pure, Except.pure]; rfl, ?_⟩
    rw [astEval_param hv h2]; simp only [evPVA]
  | .named l, h, e, v, hv => by
    simp only [okPVA] at h
    obtain ⟨el, h1, h2⟩ := namedPs_eval hA l h
    refine ⟨_, by simp only [visitPVA, h1, bind, Except.bind, pure, Except.pure]; rfl, ?_⟩
    rw [astEval_param hv h2]; simp only [evPVA]
theorem pexprs_eval (hA : Agrees A leaf) : ∀ x : List PExpr, okPExprs x →
    ∃ e, visitPExprs x = .ok e ∧ astEvals A leaf e = some (evPExprs A x)
  | [], _ => ⟨[], by simp only [visitPExprs], by simp only [astEvals, evPExprs]⟩
  | e :: l, h => by
    simp only [okPExprs] at h
    obtain ⟨ea, ha1, ha2⟩ := pexpr_eval hA e h.1
    obtain ⟨eb, hb1, hb2⟩ := pexprs_eval hA l h.2
    simp only [visitPExprs, evPExprs]
    exact cons_step ha1 hb1 ha2 hb2
theorem pexpr_eval (hA : Agrees A leaf) : ∀ x : PExpr, okPExpr x → ∃ e, visitPExpr x = .ok e ∧ astEval A leaf e = some (evPExpr A x)
  | .mtm m, h => by
    simp only [okPExpr] at h; simp only [visitPExpr, evPExpr]; exact mtm_eval hA m h
  | .type t, h => by
    simp only [okPExpr] at h; simp only [visitPExpr, evPExpr]; exact dtype_eval hA t h
theorem namedPs_eval (hA : Agrees A leaf) : ∀ x : List NamedP, okNamedPs x →
    ∃ e, visitNamedPs x = .ok e ∧ astEvals A leaf e = some (evNamedPs A x)
  | [], _ => ⟨[], by simp only [visitNamedPs], by simp only [astEvals, evNamedPs]⟩
  | e :: l, h => by
    simp only [okNamedPs] at h
    obtain ⟨ea, ha1, ha2⟩ := namedP_eval hA e h.1
    obtain ⟨eb, hb1, hb2⟩ := namedPs_eval hA l h.2
    simp only [visitNamedPs, evNamedPs]
    exact cons_step ha1 hb1 ha2 hb2
theorem namedP_eval (hA : Agrees A leaf) : ∀ x : NamedP, okNamedP x →
    ∃ e, visitNamedP x = .ok e ∧ astEval A leaf e = some (evNamedP A x)
  | .empty _, h => by simp [okNamedP] at h
  | .val i e, h => by
    simp only [okNamedP] at h
    obtain ⟨ea, ha1, ha2⟩ := ident_eval hA h.1
    obtain ⟨eb, hb1, hb2⟩ := pexpr_eval hA e h.2
    simp only [visitNamedP, evNamedP]
    exact bin_step ha1 hb1 ha2 hb2 rfl
theorem dtype_eval (hA : Agrees A leaf) : ∀ x : DType, okDType x → ∃ e, visitDType x = .ok e ∧ astEval A leaf e = some (evDType A x)
  | .string, _ => ⟨_, by rw [visitDType], by rw [kw_eval hA (by decide)]; simp only [evDType]⟩
  | .chandle, _ => ⟨_, by rw [visitDType], by rw [kw_eval hA (by decide)]; simp only [evDType]⟩
  | .virtual _ _ _, h => by simp [okDType] at h
  | .event, _ => ⟨_, by rw [visitDType], by rw [kw_eval hA (by decide)]; simp only [evDType]⟩
  | .prim (.vec kw s) [], h => by
    simp only [okDType] at h
    refine ⟨visitDPrim (.vec kw s), by simp only [visitDType, visitVDims], ?_⟩
    simp only [visitDPrim]
    rw [wire_eval hA h (v := A.nul) (by simp [astEval])]; simp only [evDType]
  | .prim (.vec kw s) (.range r :: l), h => by
    simp only [okDType] at h
    obtain ⟨hk, hr, hl⟩ := h
    obtain ⟨er, hr1, hr2⟩ := arange_eval hA r hr
    obtain ⟨e, h1, h2⟩ := vdims_eval hA l hl (mkWireT (.id none kw) er s) _ (wire_eval hA hk hr2 s)
    refine ⟨e, ?_, by simpa only [evDType] using h2⟩
    simp only [visitDType, visitVDims, visitVDim, hr1, bind, Except.bind, fillWidth_eq hr2]
    exact h1
  | .prim (.vec kw s) (.type t :: l), h => by
    simp only [okDType] at h
    obtain ⟨hk, hr, hl⟩ := h
    obtain ⟨er, hr1, hr2⟩ := dtype_eval hA t hr
    obtain ⟨e, h1, h2⟩ := vdims_eval hA l hl (mkWireT (.id none kw) er s) _ (wire_eval hA hk hr2 s)
    refine ⟨e, ?_, by simpa only [evDType] using h2⟩
    simp only [visitDType, visitVDims, visitVDim, hr1, bind, Except.bind, fillWidth_eq hr2]
    exact h1
  | .prim (.vec kw s) (.empty :: l), h => by simp [okDType] at h
  | .prim (.vec kw s) (.star :: l), h => by simp [okDType] at h
  | .prim (.atom kw s) l, h => by
    simp only [okDType] at h
    obtain ⟨h1, h2⟩ := dprim_eval hA (.atom kw s) h.1 (by intro _ _ hh; cases hh)
    obtain ⟨e, h3, h4⟩ := vdims_eval hA l h.2 _ _ (h2 l).1
    rw [visitDType, (h2 l).2]
    exact ⟨e, by rw [h1]; exact h3, h4⟩
  | .prim (.nonInt kw) l, h => by
    simp only [okDType] at h
    obtain ⟨h1, h2⟩ := dprim_eval hA (.nonInt kw) h.1 (by intro _ _ hh; cases hh)
    obtain ⟨e, h3, h4⟩ := vdims_eval hA l h.2 _ _ (h2 l).1
    rw [visitDType, (h2 l).2]
    exact ⟨e, by rw [h1]; exact h3, h4⟩
  | .enum _, h => by simp [okDType] at h
  | .struct _, h => by simp [okDType] at h
  | .path p l, h => by
    simp only [okDType] at h
    obtain ⟨ep, hp1, hp2⟩ := path_eval hA p h.1
    obtain ⟨e, h3, h4⟩ := vdims_eval hA l h.2.1 _ _ hp2
    refine ⟨e, ?_, by simpa only [evDType] using h4⟩
    simp only [visitDType, hp1, bind, Except.bind]
    rcases h.2.2 with rfl | h5
    · simpa only [visitVDims] using h3
    · rw [h5 ep hp1]; exact h3
  | .typeRef t, h => by
    simp only [okDType] at h; simp only [visitDType, evDType]; exact tref_eval hA t h
theorem vdims_eval (hA : Agrees A leaf) : ∀ x : List VDim, okVDims x → ∀ (t : Expr) (v : V), astEval A leaf t = some v →
    ∃ e, visitVDims false t x = .ok e ∧ astEval A leaf e = some (evVDims A v x)
  | [], _, t, v, hv => ⟨t, by simp only [visitVDims], by simpa only [evVDims] using hv⟩
  | .empty :: l, h, t, v, hv => by
    simp only [okVDims] at h
    obtain ⟨e, h1, h2⟩ := vdims_eval hA l h.2 (.mkUn none .INDEX t) (A.un "[]" v) (by rw [astEval_un hv]; rfl)
    exact ⟨e, by simp only [visitVDims, visitVDim, bind, Except.bind, mkDim]; exact h1, by simpa only [evVDims, evVDim] using h2⟩
  | .star :: l, h, t, v, hv => by simp [okVDims, okVDim] at h
  | .type d :: l, h, t, v, hv => by
    simp only [okVDims, okVDim] at h
    obtain ⟨ed, hd1, hd2⟩ := dtype_eval hA d h.1
    obtain ⟨e, h1, h2⟩ := vdims_eval hA l h.2 _ _ (mkDim_eval hv hd2)
    exact ⟨e, by simp only [visitVDims, visitVDim, hd1, bind, Except.bind]; exact h1, by simpa only [evVDims, evVDim] using h2⟩
  | .range d :: l, h, t, v, hv => by
    simp only [okVDims, okVDim] at h
    obtain ⟨ed, hd1, hd2⟩ := arange_eval hA d h.1
    obtain ⟨e, h1, h2⟩ := vdims_eval hA l h.2 _ _ (mkDim_eval hv hd2)
    exact ⟨e, by simp only [visitVDims, visitVDim, hd1, bind, Except.bind]; exact h1, by simpa only [evVDims, evVDim] using h2⟩
theorem tref_eval (hA : Agrees A leaf) : ∀ x : TRef, okTRef x → ∃ e, visitTRef x = .ok e ∧ astEval A leaf e = some (evTRef A x)
  | .expr x, h => by
    simp only [okTRef] at h
    obtain ⟨e, h1, h2⟩ := exp_eval hA x h
    simp only [visitTRef, evTRef]
    exact un_step h1 h2 rfl
  | .type x, h => by
    simp only [okTRef] at h
    obtain ⟨e, h1, h2⟩ := dtype_eval hA x h
    simp only [visitTRef, evTRef]
    exact un_step h1 h2 rfl
theorem pattern_eval (hA : Agrees A leaf) : ∀ x : Pattern, okPattern x →
    ∃ e, visitPattern x = .ok e ∧ astEval A leaf e = some (evPattern A x)
  | .list l, h => by
    simp only [okPattern] at h
    obtain ⟨e, h1, h2, -⟩ := exps_eval hA l h
    refine ⟨_, by simp only [visitPattern, h1, bind, Except.bind, pure, Except.pure]; rfl, ?_⟩
    simp [astEval, h2, evPattern]
  | .keyed l, h => by
    simp only [okPattern] at h
    obtain ⟨e, h1, h2⟩ := kvs_eval hA l h
    refine ⟨_, by simp only [visitPattern, h1, bind, Except.bind, pure, Except.pure]; rfl, ?_⟩
    simp [astEval, h2, evPattern]
  | .repl _ _, h => by simp [okPattern] at h
theorem kvs_eval (hA : Agrees A leaf) : ∀ x : List KV, okKVs x → ∃ e, visitKVs x = .ok e ∧ astEvals A leaf e = some (evKVs A x)
  | [], _ => ⟨[], by simp only [visitKVs], by simp only [astEvals, evKVs]⟩
  | e :: l, h => by
    simp only [okKVs] at h
    obtain ⟨ea, ha1, ha2⟩ := kv_eval hA e h.1
    obtain ⟨eb, hb1, hb2⟩ := kvs_eval hA l h.2
    simp only [visitKVs, evKVs]
    exact cons_step ha1 hb1 ha2 hb2
theorem kv_eval (hA : Agrees A leaf) : ∀ x : KV, okKV x → ∃ e, visitKV x = .ok e ∧ astEval A leaf e = some (evKV A x)
  | .mk k x, h => by
    simp only [okKV] at h
    obtain ⟨ek, hk1, hk2⟩ := key_eval hA k h.1
    obtain ⟨ex, hx1, hx2⟩ := exp_eval hA x h.2
    refine ⟨_, by simp only [visitKV, hk1, hx1, bind, Except.bind, pure, Except.pure]; rfl, ?_⟩
    rw [astEval_bin hk2 hx2]; simp only [opMeaning, evKV]
theorem key_eval (hA : Agrees A leaf) : ∀ x : Key, okKey x → ∃ e, visitKey x = .ok e ∧ astEval A leaf e = some (evKey A x)
  | .ident i, h => by
    simp only [okKey] at h; simp only [visitKey, evKey]; exact ident_eval hA h
  | .dflt, _ => ⟨_, by rw [visitKey], by rw [kw_eval hA (by decide)]; simp only [evKey]⟩
  | .intType, h => by simp [okKey] at h
  | .nonIntType, h => by simp [okKey] at h
  | .path p, h => by
    simp only [okKey] at h; simp only [visitKey, evKey]; exact path_eval hA p h
  | .expr e, h => by
    simp only [okKey] at h; simp only [visitKey, evKey]; exact exp_eval hA e h
theorem lval_eval (hA : Agrees A leaf) : ∀ x : LVal, okLVal x → ∃ e, visitLVal x = .ok e ∧ astEval A leaf e = some (evLVal A x)
  | .brace [], h => by simp [okLVal] at h
  | .brace [x], h => by
    simp only [okLVal, okLVals] at h
    obtain ⟨e, h1, h2⟩ := lval_eval hA x h.1.1
    refine ⟨e, by simp [visitLVal, visitLVals, h1, bind, Except.bind, pure, Except.pure, reduceE, appendExpr], ?_⟩
    simpa only [evLVal] using h2
  | .brace (a :: b :: l), h => by
    simp only [okLVal] at h
    obtain ⟨el, h1, h2, h3⟩ := lvals_eval hA (a :: b :: l) h.1
    refine ⟨_, by simp only [visitLVal, h1, bind, Except.bind, pure, Except.pure]; rfl, ?_⟩
    rw [reduce_eval2 hA h2 (by simp at h3; omega)]; simp [evLVal]
  | .hier x, h => by
    simp only [okLVal] at h; simp only [visitLVal, evLVal]; exact hsel_eval hA x h
  | .pattern, h => by simp [okLVal] at h
  | .streaming, h => by simp [okLVal] at h
theorem lvals_eval (hA : Agrees A leaf) : ∀ x : List LVal, okLVals x →
    ∃ e, visitLVals x = .ok e ∧ astEvals A leaf e = some (evLVals A x) ∧ e.length = x.length
  | [], _ => ⟨[], by simp only [visitLVals], by simp only [astEvals, evLVals], rfl⟩
  | e :: l, h => by
    simp only [okLVals] at h
    obtain ⟨ea, ha1, ha2⟩ := lval_eval hA e h.1
    obtain ⟨eb, hb1, hb2, hb3⟩ := lvals_eval hA l h.2
    refine ⟨_, by simp only [visitLVals, ha1, hb1, bind, Except.bind, pure, Except.pure]; rfl, ?_, ?_⟩
    · rw [astEvals_cons ha2 hb2]; simp only [evLVals]
    · simp [hb3]
theorem hsel_eval (hA : Agrees A leaf) : ∀ x : HSel, okHSel x → ∃ e, visitHSel x = .ok e ∧ astEval A leaf e = some (evHSel A x)
  | .mk p bits ms s, h => by
    simp only [okHSel] at h
    obtain ⟨hp, hb, rfl, hs⟩ := h
    obtain ⟨ep, hp1, hp2⟩ := path_eval hA p hp
    obtain ⟨eb, hb1, hb2⟩ := bits_eval hA bits hb _ _ hp2
    obtain ⟨es, hs1, hs2⟩ := sel_eval hA s hs _ _ hb2
    exact ⟨es, by simp only [visitHSel, hp1, hb1, bind, Except.bind]; exact hs1, by simpa only [evHSel, evMembers] using hs2⟩
theorem bits_eval (hA : Agrees A leaf) : ∀ x : List Exp, okExps x → ∀ (r : Expr) (v : V), astEval A leaf r = some v →
    ∃ e, visitBits r x = .ok e ∧ astEval A leaf e = some (evBits A v x)
  | [], _, r, v, hv => ⟨r, by simp only [visitBits], by simpa only [evBits] using hv⟩
  | e :: l, h, r, v, hv => by
    simp only [okExps] at h
    obtain ⟨ee, he1, he2⟩ := exp_eval hA e h.1
    obtain ⟨x, h1, h2⟩ := bits_eval hA l h.2 (appendExpr r .INDEX ee) (A.index v (evExp A e))
      (by rw [astEval_append _ hv, astEval_bin hv he2]; rfl)
    exact ⟨x, by simp only [visitBits, he1, bind, Except.bind]; exact h1, by simpa only [evBits] using h2⟩
theorem sel_eval (hA : Agrees A leaf) : ∀ x : Sel, okSel x → ∀ (r : Expr) (v : V), astEval A leaf r = some v →
    ∃ e, visitSel r x = .ok e ∧ astEval A leaf e = some (evSel A v x)
  | .none, _, r, v, hv => ⟨r, by simp only [visitSel], by simpa only [evSel] using hv⟩
  | .range a b, h, r, v, hv => by
    simp only [okSel] at h
    obtain ⟨ea, ha1, ha2⟩ := exp_eval hA a h.1
    obtain ⟨eb, hb1, hb2⟩ := exp_eval hA b h.2
    refine ⟨_, by simp only [visitSel, ha1, hb1, bind, Except.bind, pure, Except.pure]; rfl, ?_⟩
    rw [astEval_append _ hv, astEval_bin hv (by rw [astEval_bin ha2 hb2]; rfl)]; simp only [opMeaning, evSel]
  | .plus a b, h, r, v, hv => by
    simp only [okSel] at h
    obtain ⟨ea, ha1, ha2⟩ := exp_eval hA a h.1
    obtain ⟨eb, hb1, hb2⟩ := exp_eval hA b h.2
    refine ⟨_, by simp only [visitSel, ha1, hb1, bind, Except.bind, pure, Except.pure]; rfl, ?_⟩
    rw [astEval_append _ hv, astEval_bin hv (by rw [astEval_bin ha2 hb2]; rfl)]; simp only [opMeaning, evSel]
  | .minus a b, h, r, v, hv => by
    simp only [okSel] at h
    obtain ⟨ea, ha1, ha2⟩ := exp_eval hA a h.1
    obtain ⟨eb, hb1, hb2⟩ := exp_eval hA b h.2
    refine ⟨_, by simp only [visitSel, ha1, hb1, bind, Except.bind, pure, Except.pure]; rfl, ?_⟩
    rw [astEval_append _ hv, astEval_bin hv (by rw [astEval_bin ha2 hb2]; rfl)]; simp only [opMeaning, evSel]
/-- The arguments, at the start of the list or after a comma. -/
theorem args_eval (hA : Agrees A leaf) : ∀ x : List Arg, okArgs true x →
    ∃ e, visitArgs true x = .ok e ∧ astEvals A leaf e = some (evArgs A none x)
  | [], h => by simp [okArgs] at h
  | .comma :: l, h => by
    simp only [okArgs] at h
    obtain ⟨e, h1, h2⟩ := args_eval hA l h
    refine ⟨_, by simp only [visitArgs, h1, bind, Except.bind, pure, Except.pure]; rfl, ?_⟩
    rw [if_pos trivial, astEvals_cons (kw_eval hA (by decide)) h2]; simp only [evArgs, argVal]
  | .expr x :: l, h => by
    simp only [okArgs] at h
    obtain ⟨ex, hx1, hx2⟩ := exp_eval hA x h.2.1
    obtain ⟨e, h1, vs, h2, h3⟩ := argsTail_eval hA l h.2.2
    refine ⟨_, by simp only [visitArgs, hx1, h1, bind, Except.bind, pure, Except.pure]; rfl, ?_⟩
    rw [astEvals_cons hx2 h2]; simp only [evArgs, h3]
  | .namedEmpty i :: l, h => by
    simp only [okArgs] at h
    obtain ⟨ei, hi1, hi2⟩ := ident_eval hA h.2.1
    obtain ⟨e, h1, vs, h2, h3⟩ := argsTail_eval hA l h.2.2
    refine ⟨_, by simp only [visitArgs, hi1, h1, bind, Except.bind, pure, Except.pure]; rfl, ?_⟩
    rw [astEvals_cons (by rw [astEval_bin hi2 (kw_eval hA (by decide))]; rfl) h2]; simp only [evArgs, h3]
  | .named i x :: l, h => by
    simp only [okArgs] at h
    obtain ⟨ei, hi1, hi2⟩ := ident_eval hA h.2.1
    obtain ⟨ex, hx1, hx2⟩ := exp_eval hA x h.2.2.1
    obtain ⟨e, h1, vs, h2, h3⟩ := argsTail_eval hA l h.2.2.2
    refine ⟨_, by simp only [visitArgs, hi1, hx1, h1, bind, Except.bind, pure, Except.pure]; rfl, ?_⟩
    rw [astEvals_cons (by rw [astEval_bin hi2 hx2]; rfl) h2]; simp only [evArgs, h3]
/-- The arguments after the one that was just read. -/
theorem argsTail_eval (hA : Agrees A leaf) : ∀ x : List Arg, okArgs false x →
    ∃ e, visitArgs false x = .ok e ∧ ∃ vs, astEvals A leaf e = some vs ∧ ∀ v, evArgs A (some v) x = v :: vs
  | [], _ => ⟨[], by simp only [visitArgs], [], by simp only [astEvals], fun v => by simp only [evArgs, argVal]⟩
  | .comma :: l, h => by
    simp only [okArgs] at h
    obtain ⟨e, h1, h2⟩ := args_eval hA l h
    exact ⟨e, by simp [visitArgs, h1, bind, Except.bind, pure, Except.pure], _, h2, fun v => by simp only [evArgs, argVal]⟩
  | .expr _ :: _, h => by simp [okArgs] at h
  | .namedEmpty _ :: _, h => by simp [okArgs] at h
  | .named _ _ :: _, h => by simp [okArgs] at h
end

end Verif.Sv
