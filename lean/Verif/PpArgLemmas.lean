import Verif.PpLexSteps
/-!
# Tokens of the arguments of macro calls and of default values
-/
namespace Verif.Pp
open Verif.Antlr Verif.Antlr.Re
open Verif.Spec.Pp (idFirst idNext blank isName noHead keywords StrPiece strText strOk
  ArgPiece argSpecial argText argAlt argOk balanced noComment commas)

/-- The rule of EXPR_MODE for a text which starts with this character (not a comment). -/
def exprIdx (c : Char) : Nat :=
  if c = '(' then 3 else if c = ')' then 4 else if c = '{' then 5 else if c = '}' then 6 else if c = '[' then 7
  else if c = ']' then 8 else if c = ',' then 9 else if c = '"' then 10 else 2

theorem der_nonSpecial (c : Char) : (non ['[', ']', '(', ')', '"', '{', '}', ',']).der (some c) = one (!argSpecial c) := by
  simp only [der, test]
  congr 1
  rw [Bool.eq_iff_iff]
  simp [argSpecial]
  tauto

theorem exprIdx_two {c : Char} : exprIdx c = 2 ↔ argSpecial c = false := by
  unfold exprIdx argSpecial
  constructor
  · intro h
    rw [Bool.eq_false_iff]
    intro hc
    simp only [Bool.or_eq_true, beq_iff_eq] at hc
    rcases hc with ((((((rfl | rfl) | rfl) | rfl) | rfl) | rfl) | rfl) | rfl <;> revert h <;> decide
  · intro h
    simp at h
    simp [h]

theorem expr_no {c : Char} {t : Str} (h1 : ¬ ['/', '/'] <+: c :: t) (h2 : ¬ ['/', '*'] <+: c :: t) {j : Nat} {q : Rule}
    (hj : j ≠ exprIdx c) (hq : exprRules[j]? = some q) : longest q.re (syms (c :: t)) = none := by
  have hs : ∀ x, exprIdx x = j → longest (set [x]) (syms (c :: t)) = none := by
    intro x hx
    refine set1_no (NoHead_cons.2 ?_)
    simp
    rintro rfl
    exact hj hx.symm
  match j, hq with
  | 0, hq => cases hq; exact line_no h1
  | 1, hq => cases hq; exact comment_no h2
  | 2, hq =>
    cases hq
    refine plus_no der_nonSpecial rfl rfl (NoHead_cons.2 ?_)
    rw [Bool.not_eq_false']
    cases h : argSpecial c with
    | true => rfl
    | false => exact absurd (exprIdx_two.2 h).symm hj
  | 3, hq => cases hq; exact hs '(' rfl
  | 4, hq => cases hq; exact hs ')' rfl
  | 5, hq => cases hq; exact hs '{' rfl
  | 6, hq => cases hq; exact hs '}' rfl
  | 7, hq => cases hq; exact hs '[' rfl
  | 8, hq => cases hq; exact hs ']' rfl
  | 9, hq => cases hq; exact hs ',' rfl
  | 10, hq =>
    cases hq
    refine str_no (NoHead_cons.2 ?_)
    simp
    rintro rfl
    exact hj rfl
  | j + 11, hq => simp [exprRules] at hq

theorem pick_expr {c : Char} {t : Str} (h1 : ¬ ['/', '/'] <+: c :: t) (h2 : ¬ ['/', '*'] <+: c :: t) {i : Nat} {r : Rule}
    {n : Nat} (hi : i = exprIdx c) (hr : exprRules[i]? = some r) (hn : longest r.re (syms (c :: t)) = some n) :
    pick Rule.re exprRules (syms (c :: t)) = some (r, n) :=
  pick_only hr hn (fun j q hj hq => expr_no h1 h2 (by rw [← hi]; exact hj) hq)

theorem no_slash {c d : Char} {t : Str} (h : c ≠ '/') : ¬ ['/', d] <+: c :: t := by
  intro hp
  rw [List.cons_prefix_cons] at hp
  exact h hp.1.symm

theorem noComment_prefix {s rest : Str} (h : noComment s = true) (hr : NoHead (fun c => !argSpecial c) rest) (hne : s ≠ []) :
    ¬ ['/', '/'] <+: s ++ rest ∧ ¬ ['/', '*'] <+: s ++ rest := by
  have key : ∀ d, d = '/' ∨ d = '*' → ¬ ['/', d] <+: s ++ rest := by
    intro d hd hp
    match s, hne with
    | c :: s, _ =>
      rw [List.cons_append, List.cons_prefix_cons] at hp
      obtain ⟨rfl, hp⟩ := hp
      match s with
      | [] =>
        rw [List.nil_append] at hp
        cases rest with
        | nil => simp at hp
        | cons e rest =>
          rw [List.cons_prefix_cons] at hp
          have := NoHead_cons.1 hr
          rw [← hp.1] at this
          rcases hd with rfl | rfl <;> exact absurd this (by decide)
      | e :: s =>
        rw [List.cons_append, List.cons_prefix_cons] at hp
        rw [← hp.1] at h
        rcases hd with rfl | rfl <;> simp [noComment] at h
  exact ⟨key _ (.inl rfl), key _ (.inr rfl)⟩

/-- A piece of plain text. -/
theorem lex_argPlain {stk : List Mode} {lp clp : Bool} {m : ExprMeta} {s rest : Str} (hs : s ≠ [])
    (hall : ∀ c ∈ s, argSpecial c = false) (hc : noComment s = true) (hr : NoHead (fun c => !argSpecial c) rest)
    (p : Nat × Nat) (i : Nat) :
    Lexes ⟨.expr, stk, lp, clp, m⟩ p i s rest ⟨.expr, stk, lp, clp, m⟩ [tk .CODE .default s p i] := by
  obtain ⟨h1, h2⟩ := noComment_prefix hc hr hs
  have hl : longest (plus (non ['[', ']', '(', ')', '"', '{', '}', ','])) (syms (s ++ rest)) = some s.length :=
    longest_plus_class der_nonSpecial rfl rfl hs (fun c hc => by simp [hall c hc]) hr
  match s, hs, hall, h1, h2, hl with
  | c :: s, hs, hall, h1, h2, hl =>
    exact lexes_tok hs (r := ⟨.CODE, plus (non ['[', ']', '(', ')', '"', '{', '}', ',']), []⟩)
      (pick_expr h1 h2 (i := 2) (exprIdx_two.2 (hall c (by simp))).symm rfl hl) (.inl rfl) rfl

/-- A string. -/
theorem lex_argStr {stk : List Mode} {lp clp : Bool} {m : ExprMeta} {l : List StrPiece} (hl : strOk l = true)
    (rest : Str) (p : Nat × Nat) (i : Nat) :
    Lexes ⟨.expr, stk, lp, clp, m⟩ p i (strText l) rest ⟨.expr, stk, lp, clp, m⟩ [tk .CODE .default (strText l) p i] :=
  lexes_tok (by simp [strText]) (r := ⟨.CODE, STRr, []⟩)
    (pick_expr (c := '"') (no_slash (by decide)) (no_slash (by decide)) (i := 10) rfl rfl (longest_str hl rest)) (.inl rfl) rfl

/-- A bracket or a comma. -/
theorem lex_argBr {st st' : St} (hst : st.mode = .expr) {c : Char} {i0 : Nat} {r : Rule} {ty : TT} (hi : i0 = exprIdx c)
    (hr : exprRules[i0]? = some r) (hre : r.re = set [c]) (he : r.exec st [c] = ⟨st', ty, false, .default, [c], false⟩)
    (hc : c ≠ '/') (rest : Str) (p : Nat × Nat) (i : Nat) : Lexes st p i [c] rest st' [tk ty .default [c] p i] := by
  refine lexes_tok (by simp) (r := r) (n := 1) ?_ (.inl rfl) he
  rw [hst]
  exact pick_expr (no_slash hc) (no_slash hc) hi hr (by rw [hre]; exact longest_set1 rest)

theorem plainToks_cons (p : Nat × Nat) (i : Nat) (ty : TT) (t : Str) (l : List (TT × Str)) :
    plainToks p i ((ty, t) :: l) = [tk ty .default t p i] ++ plainToks (advance p t) (i + t.length) l := rfl

/-- The tokens of an argument. -/
theorem lex_arg {stk : List Mode} {lp clp re ex : Bool} {nx : Option Mode} (l : List ArgPiece) (hok : l.all ArgPiece.ok = true)
    (halt : argAlt l = true) {rest : Str} (hr : NoHead (fun c => !argSpecial c) rest) :
    ∀ (a b q : Nat) (p : Nat × Nat) (i : Nat), balanced a b q l = true →
    Lexes ⟨.expr, stk, lp, clp, ⟨a, b, q, re, ex, nx⟩⟩ p i (argText l) rest ⟨.expr, stk, lp, clp, ⟨0, 0, 0, re, ex, nx⟩⟩
      (plainToks p i (l.map fun x => (.CODE, x.text))) := by
  induction l with
  | nil =>
    intro a b q p i hb
    simp [balanced] at hb
    obtain ⟨⟨rfl, rfl⟩, rfl⟩ := hb
    exact Lexes.nil _ _ _ _
  | cons x l ih =>
    intro a b q p i hb
    simp only [List.all_cons, Bool.and_eq_true] at hok
    have halt' : argAlt l = true := by
      cases x <;> cases l <;> (try rename_i y l; cases y) <;> simp_all [argAlt]
    have ih := ih hok.2 halt'
    rw [List.map_cons, plainToks_cons]
    show Lexes _ p i (x.text ++ argText l) rest _ _
    cases x with
    | plain s =>
      have hb' : balanced a b q l = true := by simpa [balanced] using hb
      simp only [ArgPiece.ok, Bool.and_eq_true, Bool.not_eq_true', List.isEmpty_eq_false_iff, List.all_eq_true] at hok
      refine (lex_argPlain hok.1.1.1 hok.1.1.2 hok.1.2 ?_ p i).trans (ih a b q _ _ hb')
      cases l with
      | nil => exact hr
      | cons y l =>
        cases y with
        | plain => simp [argAlt] at halt
        | str l => exact NoHead_cons.2 (by decide)
        | br c =>
          have := hok.2 (.br c) (by simp)
          simp only [Bool.and_eq_true, ArgPiece.ok] at this
          exact NoHead_cons.2 (by simp [this.1])
    | str s =>
      have hb' : balanced a b q l = true := by simpa [balanced] using hb
      exact (lex_argStr hok.1 _ p i).trans (ih a b q _ _ hb')
    | br c =>
      have hc := hok.1
      simp only [ArgPiece.ok, argSpecial, Bool.and_eq_true, Bool.or_eq_true, beq_iff_eq, bne_iff_ne] at hc
      obtain ⟨hc, hne⟩ := hc
      rcases hc with ((((((rfl | rfl) | rfl) | rfl) | rfl) | rfl) | rfl) | rfl
      · have hb' : balanced a b (q + 1) l = true := by simpa [balanced] using hb
        exact (lex_argBr rfl (i0 := 7) rfl rfl rfl rfl (by decide) _ p i).trans (ih a b (q + 1) _ _ hb')
      · have hb' : 0 < q ∧ balanced a b (q - 1) l = true := by simpa [balanced] using hb
        exact (lex_argBr rfl (i0 := 8) rfl rfl rfl rfl (by decide) _ p i).trans (ih a b (q - 1) _ _ hb'.2)
      · have hb' : balanced (a + 1) b q l = true := by simpa [balanced] using hb
        exact (lex_argBr rfl (i0 := 3) rfl rfl rfl rfl (by decide) _ p i).trans (ih (a + 1) b q _ _ hb')
      · have hb' : 0 < a ∧ balanced (a - 1) b q l = true := by simpa [balanced] using hb
        refine (lex_argBr rfl (i0 := 4) rfl rfl rfl ?_ (by decide) _ p i).trans (ih (a - 1) b q _ _ hb'.2)
        simp [Rule.exec, exprRp, hb'.1, ty, updMeta, upd]
      · exact absurd rfl hne
      · have hb' : balanced a (b + 1) q l = true := by simpa [balanced] using hb
        exact (lex_argBr rfl (i0 := 5) rfl rfl rfl rfl (by decide) _ p i).trans (ih a (b + 1) q _ _ hb')
      · have hb' : 0 < b ∧ balanced a (b - 1) q l = true := by simpa [balanced] using hb
        exact (lex_argBr rfl (i0 := 6) rfl rfl rfl rfl (by decide) _ p i).trans (ih a (b - 1) q _ _ hb'.2)
      · have hb' : ((¬ a = 0 ∨ ¬ b = 0) ∨ ¬ q = 0) ∧ balanced a b q l = true := by
          simpa [balanced] using hb
        refine (lex_argBr rfl (i0 := 9) rfl rfl rfl ?_ (by decide) _ p i).trans (ih a b q _ _ hb'.2)
        have hnb : ExprMeta.noBrace ⟨a, b, q, re, ex, nx⟩ = false := by
          simp only [ExprMeta.noBrace]
          rcases hb'.1 with (h | h) | h <;> simp [h]
        simp [Rule.exec, exprComma, hnb, ty]

/-- The tokens of the arguments of a call: the last one is `RP`. -/
def argsToks : Nat × Nat → Nat → List (List ArgPiece) → List Tok
  | p, i, [] => [tk .RP .default [')'] p i]
  | p, i, [a] => plainToks p i (a.map fun x => (.CODE, x.text)) ++
    [tk .RP .default [')'] (advance p (argText a)) (i + (argText a).length)]
  | p, i, a :: r => plainToks p i (a.map fun x => (.CODE, x.text)) ++
    tk .COMMA .default [','] (advance p (argText a)) (i + (argText a).length) ::
      argsToks (advance (advance p (argText a)) [',']) (i + (argText a).length + 1) r

theorem lex_args {stk : List Mode} {lp clp : Bool} (as : List (List ArgPiece)) (hne : as ≠ []) (hok : as.all argOk = true)
    (rest : Str) : ∀ (p : Nat × Nat) (i : Nat),
    Lexes ⟨.expr, .macroArgs :: .default :: stk, lp, clp, metaReset true true none⟩ p i (commas (as.map argText) ++ [')']) rest
      ⟨.default, stk, lp, clp, metaReset true true none⟩ (argsToks p i as) := by
  induction as with
  | nil => exact absurd rfl hne
  | cons a as ih =>
    intro p i
    simp only [List.all_cons, Bool.and_eq_true, argOk] at hok
    cases as with
    | nil =>
      exact (lex_arg a hok.1.1.1 hok.1.1.2 (NoHead_cons.2 (by decide)) 0 0 0 p i hok.1.2).trans
        (lex_argBr rfl (i0 := 4) rfl rfl rfl rfl (by decide) rest _ _)
    | cons a' as =>
      have h1 := lex_arg (stk := .macroArgs :: .default :: stk) (lp := lp) (clp := clp) (re := true) (ex := true) (nx := none)
        a hok.1.1.1 hok.1.1.2 (rest := [','] ++ (commas ((a' :: as).map argText) ++ [')'] ++ rest))
        (NoHead_cons.2 (by decide)) 0 0 0 p i hok.1.2
      have h2 := h1.trans (lex_argBr (st' := ⟨.expr, .macroArgs :: .default :: stk, lp, clp, metaReset true true none⟩)
        rfl (i0 := 9) rfl rfl rfl rfl (by decide) (commas ((a' :: as).map argText) ++ [')'] ++ rest) _ _)
      have h3 := h2.trans (ih (by simp) (by simpa [argOk] using hok.2) _ _)
      have e : argText a ++ [','] ++ (commas ((a' :: as).map argText) ++ [')']) =
          commas ((a :: a' :: as).map argText) ++ [')'] := by
        simp [commas]
      rw [e] at h3
      rw [argsToks]
      · rw [advance_append, List.length_append, ← Nat.add_assoc] at h3
        simpa [metaReset] using h3
      · simp

theorem lex_callArgs {stk : List Mode} {lp clp : Bool} {m : ExprMeta} {n ws : Str} {as : List (List ArgPiece)}
    (hn : isName n = true) (hk : n ∉ keywords) (hw : ws.all blank = true) (hne : as ≠ []) (hok : as.all argOk = true)
    (rest : Str) (p : Nat × Nat) (i : Nat) :
    Lexes ⟨.default, stk, lp, clp, m⟩ p i (('`' :: (n ++ ws ++ ['('])) ++ (commas (as.map argText) ++ [')'])) rest
      ⟨.default, stk, lp, true, metaReset true true none⟩
      (tk .CALL_ARGS .default (n ++ ws ++ ['(']) (p.1, p.2 + 1) (i + 1) ::
        argsToks (advance p ('`' :: (n ++ ws ++ ['(']))) (i + ('`' :: (n ++ ws ++ ['('])).length) as) := by
  have h0 : Lexes ⟨.default, stk, lp, clp, m⟩ p i ['`'] (n ++ ws ++ ['('] ++ (commas (as.map argText) ++ [')'] ++ rest))
      ⟨.directive, .default :: stk, lp, clp, m⟩ [] := by
    have := lex_bt (stk := stk) (lp := lp) (clp := clp) (m := m) (rest := ws ++ ['('] ++ (commas (as.map argText) ++ [')'] ++ rest)) hn p i
    simpa only [List.append_assoc] using this
  have h1 : ∀ p i, Lexes ⟨.directive, .default :: stk, lp, clp, m⟩ p i (n ++ ws ++ ['(']) (commas (as.map argText) ++ [')'] ++ rest)
      ⟨.expr, .macroArgs :: .default :: stk, lp, true, metaReset true true none⟩
      [tk .CALL_ARGS .default (n ++ ws ++ ['(']) p i] := by
    intro p i
    refine lexes_tok (by simp) (pick_callArgs hn hk hw) (.inl rfl) rfl
  have h2 := (h0.trans (h1 _ _)).trans (lex_args as hne hok rest _ _)
  exact h2

end Verif.Pp
