import Verif.PpLexLemmas
/-!
# The parser of the preprocessor and the nesting of conditional directives
-/
namespace Verif.Pp

/-- Tokens of conditional directives. -/
def isCond : TT → Bool
  | .IFDEF | .IFNDEF | .ELSIF | .ELSE | .ENDIF => true
  | _ => false

/-- `b` is `a` without some tokens at the start which are not conditional directives. -/
def Skips (a b : List PTok) : Prop := ∃ pre, a = pre ++ b ∧ ∀ t ∈ pre, isCond t.tok.ty = false

theorem Skips.refl (a : List PTok) : Skips a a := ⟨[], rfl, by simp⟩
theorem Skips.trans {a b c : List PTok} (h1 : Skips a b) (h2 : Skips b c) : Skips a c := by
  obtain ⟨p, rfl, hp⟩ := h1
  obtain ⟨q, rfl, hq⟩ := h2
  refine ⟨p ++ q, by simp, ?_⟩
  intro t ht
  rcases List.mem_append.1 ht with h | h
  · exact hp t h
  · exact hq t h
theorem Skips.cons {t : PTok} {a b : List PTok} (ht : isCond t.tok.ty = false) (h : Skips a b) : Skips (t :: a) b := by
  obtain ⟨p, rfl, hp⟩ := h
  exact ⟨t :: p, rfl, by simpa [ht] using hp⟩

theorem Skips.drop1 {a : List PTok} (h : isCond (nextTy a) = false) : Skips a (a.drop 1) := by
  cases a with
  | nil => exact .refl _
  | cons t r => exact .cons h (.refl _)

theorem expect_skips {ty : TT} (hty : isCond ty = false) {a : List PTok} {t : PTok} {b : List PTok} (h : expect ty a = some (t, b)) :
    Skips a b := by
  cases a with
  | nil => simp [expect] at h
  | cons x r =>
    rw [expect] at h
    split at h
    · rename_i hx
      simp only [Option.some.injEq, Prod.mk.injEq] at h
      obtain ⟨-, rfl⟩ := h
      exact .cons (by rw [hx]; exact hty) (.refl _)
    · cases h

theorem many_skips {ty : TT} (hty : isCond ty = false) (a : List PTok) : Skips a (many ty a).2 := by
  induction a with
  | nil => exact .refl _
  | cons x r ih =>
    rw [many]
    split
    · rename_i hx
      exact .cons (by rw [hx]; exact hty) ih
    · exact .refl _

theorem varId_skips {a b : List PTok} {n : Str} (h : varId a = some (n, b)) : Skips a b := by
  simp only [varId, Option.bind_eq_bind, Option.bind_eq_some_iff, Option.pure_def, Option.some.injEq, Prod.mk.injEq] at h
  obtain ⟨⟨i, ts⟩, h1, -, rfl⟩ := h
  exact ((many_skips rfl a).trans (expect_skips rfl h1)).trans (many_skips rfl _)

theorem param_skips {lang : Nat} {a b : List PTok} {n : Param} (h : param lang a = some (n, b)) : Skips a b := by
  simp only [param, Option.bind_eq_bind, Option.bind_eq_some_iff, Option.pure_def] at h
  obtain ⟨⟨i, ts⟩, h1, h⟩ := h
  refine (varId_skips h1).trans ?_
  simp only at h
  split at h
  · split at h
    · rename_i x y he
      simp only [Option.some.injEq, Prod.mk.injEq] at h
      obtain ⟨-, rfl⟩ := h
      exact (expect_skips rfl he).trans (many_skips rfl _)
    · simp only [Option.some.injEq, Prod.mk.injEq] at h
      obtain ⟨-, rfl⟩ := h
      exact .refl _
  · simp only [Option.some.injEq, Prod.mk.injEq] at h
    obtain ⟨-, rfl⟩ := h
    exact .refl _

theorem params_skips {lang f : Nat} {a b : List PTok} {n : List Param} (h : params lang f a = some (n, b)) : Skips a b := by
  induction f generalizing a n with
  | zero => simp [params] at h
  | succ f ih =>
    simp only [params, Option.bind_eq_bind, Option.bind_eq_some_iff, Option.pure_def] at h
    obtain ⟨⟨i, ts⟩, h1, h⟩ := h
    refine (param_skips h1).trans ?_
    simp only at h
    split at h
    · rename_i x y he
      simp only [Option.bind_eq_some_iff, Option.some.injEq, Prod.mk.injEq] at h
      obtain ⟨⟨ps, us⟩, h2, -, rfl⟩ := h
      exact (expect_skips rfl he).trans (ih h2)
    · simp only [Option.some.injEq, Prod.mk.injEq] at h
      obtain ⟨-, rfl⟩ := h
      exact .refl _

theorem defineArgs_skips {lang : Nat} {a b : List PTok} {n : Option (List Param)} (h : defineArgs lang a = some (n, b)) : Skips a b := by
  unfold defineArgs at h
  split at h
  · simp only [Option.some.injEq, Prod.mk.injEq] at h
    obtain ⟨-, rfl⟩ := h
    exact .refl _
  · rename_i x y he
    refine (expect_skips rfl he).trans ?_
    split at h
    · rename_i he
      simp only [Option.some.injEq, Prod.mk.injEq] at h
      obtain ⟨-, rfl⟩ := h
      exact expect_skips rfl he
    · simp only [Option.bind_eq_bind, Option.bind_eq_some_iff, Option.pure_def, Option.some.injEq, Prod.mk.injEq] at h
      obtain ⟨⟨ps, us⟩, h2, ⟨t, vs⟩, h3, -, rfl⟩ := h
      exact (params_skips h2).trans (expect_skips rfl h3)

theorem endOfDefine_skips {a b : List PTok} (h : endOfDefine a = some b) : Skips a b := by
  unfold endOfDefine at h
  split at h <;> simp only [Option.some.injEq, reduceCtorEq] at h
  · rename_i he; subst h; exact .drop1 (by rw [he]; rfl)
  · rename_i he; subst h; exact .drop1 (by rw [he]; rfl)
  · subst h; exact .refl _

theorem define_skips {lang : Nat} {t : PTok} {a b : List PTok} {n : Node} (h : define lang t a = some (n, b)) : Skips a b := by
  simp only [define, Option.bind_eq_bind, Option.bind_eq_some_iff, Option.pure_def, Option.some.injEq, Prod.mk.injEq] at h
  obtain ⟨⟨i, ts⟩, h1, ⟨ps, us⟩, h2, vs, h3, -, rfl⟩ := h
  exact ((((expect_skips rfl h1).trans (defineArgs_skips h2)).trans (many_skips rfl _)).trans (many_skips rfl _)).trans (endOfDefine_skips h3)

theorem argList_skips {a cur b : List PTok} {n : List ArgTok} {e : PTok} (h : argList a cur = some (n, e, b)) : Skips a b := by
  induction a generalizing cur n with
  | nil => simp [argList] at h
  | cons t r ih =>
    rw [argList] at h
    split at h
    · rename_i ht
      simp only [Option.map_eq_some_iff, Prod.mk.injEq] at h
      obtain ⟨⟨x, y, z⟩, h1, -, rfl, rfl⟩ := h
      exact .cons (by rw [ht]; rfl) (ih h1)
    · split at h
      · rename_i ht
        simp only [Option.some.injEq, Prod.mk.injEq] at h
        obtain ⟨-, -, rfl⟩ := h
        exact .cons (by rw [ht]; rfl) (.refl _)
      · split at h
        · rename_i hc
          refine .cons ?_ (ih h)
          revert hc
          cases t.tok.ty <;> simp [copied, isCond]
        · cases h

theorem macroCall_skips {input : Str} {t : PTok} {a b : List PTok} {c : Call} (h : macroCall input t a = some (c, b)) :
    isCond t.tok.ty = false ∧ Skips a b := by
  unfold macroCall at h
  split at h
  · rename_i ht
    simp only [Option.some.injEq, Prod.mk.injEq] at h
    obtain ⟨-, rfl⟩ := h
    exact ⟨by rw [ht]; rfl, .refl _⟩
  · rename_i ht
    simp only [Option.bind_eq_bind, Option.bind_eq_some_iff, Option.pure_def, Option.some.injEq, Prod.mk.injEq] at h
    obtain ⟨⟨x, y, z⟩, h1, -, rfl⟩ := h
    exact ⟨by rw [ht]; rfl, argList_skips h1⟩
  · cases h

theorem pragma_all (f : Nat) : (∀ a b, pragmaExpr f a = some b → Skips a b) ∧
    (∀ a b, pragmaExpr.pragmaValue f a = some b → Skips a b) ∧ (∀ a b, pragmaExpr.pragmaList f a = some b → Skips a b) := by
  induction f with
  | zero =>
    refine ⟨?_, ?_, ?_⟩ <;> intro a b h
    · simp [pragmaExpr] at h
    · simp [pragmaExpr.pragmaValue] at h
    · simp [pragmaExpr.pragmaList] at h
  | succ f ih =>
    refine ⟨?_, ?_, ?_⟩ <;> intro a b h
    · rw [pragmaExpr] at h
      split at h
      · rename_i h1
        split at h
        · rename_i h2
          have := ih.2.1 _ _ h
          have e : a.drop 2 = (a.drop 1).drop 1 := by simp
          rw [e] at this
          exact ((Skips.drop1 (by rw [h1]; rfl)).trans (.drop1 (by rw [h2]; rfl))).trans this
        · simp only [Option.some.injEq] at h
          subst h
          exact .drop1 (by rw [h1]; rfl)
      · exact ih.2.1 _ _ h
    · rw [pragmaExpr.pragmaValue] at h
      split at h <;> (try simp only [Option.some.injEq, reduceCtorEq] at h) <;> rename_i h1
      · subst h; exact .drop1 (by rw [h1]; rfl)
      · subst h; exact .drop1 (by rw [h1]; rfl)
      · subst h; exact .drop1 (by rw [h1]; rfl)
      · exact (Skips.drop1 (by rw [h1]; rfl)).trans (ih.2.2 _ _ h)
    · simp only [pragmaExpr.pragmaList, Option.bind_eq_bind, Option.bind_eq_some_iff] at h
      obtain ⟨c, h1, h⟩ := h
      refine (ih.1 _ _ h1).trans ?_
      split at h <;> (try simp only [Option.pure_def, Option.some.injEq, reduceCtorEq] at h) <;> rename_i h2
      · exact (Skips.drop1 (by rw [h2]; rfl)).trans (ih.2.2 _ _ h)
      · subst h; exact .drop1 (by rw [h2]; rfl)

theorem pragmaExprs_skips {f : Nat} {a b : List PTok} (h : pragmaExprs f a = some b) : Skips a b := by
  induction f generalizing a with
  | zero => simp [pragmaExprs] at h
  | succ f ih =>
    simp only [pragmaExprs, Option.bind_eq_bind, Option.bind_eq_some_iff] at h
    obtain ⟨c, h1, h⟩ := h
    refine ((pragma_all _).1 _ _ h1).trans ?_
    split at h
    · rename_i h2
      exact (Skips.drop1 (by rw [h2]; rfl)).trans (ih h)
    · simp only [Option.pure_def, Option.some.injEq] at h
      subst h; exact .refl _

theorem pragma_end {a b : List PTok} (h : (match nextTy a with
    | .NEW_LINE => some (a.drop 1)
    | .EOF => some a
    | _ => none) = some b) : Skips a b := by
  split at h <;> (try simp only [Option.some.injEq, reduceCtorEq] at h) <;> rename_i h3
  · subst h; exact .drop1 (by rw [h3]; rfl)
  · subst h; exact .refl _

theorem pragma_skips {a b : List PTok} (h : pragma a = some b) : Skips a b := by
  simp only [pragma, Option.bind_eq_bind, Option.bind_eq_some_iff] at h
  obtain ⟨⟨i, ts⟩, h1, h⟩ := h
  refine (expect_skips rfl h1).trans ?_
  simp only at h
  split at h
  · simp only [Option.bind_some] at h
    exact pragma_end h
  · simp only [Option.bind_eq_some_iff] at h
    obtain ⟨c, h2, h⟩ := h
    exact (pragmaExprs_skips h2).trans (pragma_end h)

theorem directive_skips {lang : Nat} {input : Str} {t : PTok} {a b : List PTok} {n : Node} (h : directive lang input t a = some (n, b)) :
    Skips a b := by
  unfold directive at h
  split at h
  case h_1 => exact define_skips h
  case h_2 =>
    simp only [Option.map_eq_some_iff, Prod.mk.injEq] at h
    obtain ⟨⟨x, y⟩, h1, -, rfl⟩ := h
    exact (macroCall_skips h1).2
  case h_3 =>
    simp only [Option.map_eq_some_iff, Prod.mk.injEq] at h
    obtain ⟨⟨x, y⟩, h1, -, rfl⟩ := h
    exact (macroCall_skips h1).2
  case h_9 =>
    simp only [Option.bind_eq_bind, Option.bind_eq_some_iff, Option.pure_def] at h
    obtain ⟨⟨i, ts⟩, h1, h⟩ := h
    refine (expect_skips rfl h1).trans ?_
    simp only at h
    split at h <;> simp only [Option.some.injEq, Prod.mk.injEq, reduceCtorEq] at h <;> rename_i h3 <;> obtain ⟨-, rfl⟩ := h
    · exact .drop1 (by rw [h3]; rfl)
    · exact .drop1 (by rw [h3]; rfl)
    · exact .refl _
  case h_10 =>
    split at h
    · cases h
    · split at h
      · rename_i h1
        simp only [Option.some.injEq, Prod.mk.injEq] at h
        obtain ⟨-, rfl⟩ := h
        exact .cons (by rw [h1]; rfl) (.refl _)
      · split at h
        · simp only [Option.map_eq_some_iff, Prod.mk.injEq] at h
          obtain ⟨⟨x, y⟩, h1, -, rfl⟩ := h
          exact .cons (macroCall_skips h1).1 (macroCall_skips h1).2
        · cases h
  case h_12 =>
    simp only [Option.bind_eq_bind, Option.bind_eq_some_iff, Option.pure_def, Option.some.injEq, Prod.mk.injEq] at h
    obtain ⟨⟨_, _⟩, h1, ⟨_, _⟩, h2, ⟨_, _⟩, h3, -, rfl⟩ := h
    exact ((expect_skips rfl h1).trans (expect_skips rfl h2)).trans (expect_skips rfl h3)
  case h_13 =>
    simp only [Option.bind_eq_bind, Option.bind_eq_some_iff, Option.pure_def, Option.some.injEq, Prod.mk.injEq] at h
    obtain ⟨⟨_, _⟩, h1, ⟨_, _⟩, h2, ⟨_, _⟩, h3, -, rfl⟩ := h
    exact ((expect_skips rfl h1).trans (expect_skips rfl h2)).trans (expect_skips rfl h3)
  case h_14 =>
    simp only [Option.bind_eq_bind, Option.bind_eq_some_iff, Option.pure_def, Option.some.injEq, Prod.mk.injEq] at h
    obtain ⟨⟨_, _⟩, h1, -, rfl⟩ := h
    exact (many_skips rfl _).trans (expect_skips rfl h1)
  all_goals (try split at h) <;>
    simp only [Option.bind_eq_bind, Option.bind_eq_some_iff, Option.pure_def, Option.some.injEq, Prod.mk.injEq, reduceCtorEq] at h
  all_goals first
    | (obtain ⟨-, rfl⟩ := h; exact .refl _)
    | (obtain ⟨⟨_, _⟩, h1, -, rfl⟩ := h; exact expect_skips rfl h1)
    | (obtain ⟨_, h1, -, rfl⟩ := h; exact pragma_skips h1)

/-! ## nesting -/

/-- Open conditionals, innermost first; is the `` `else `` seen. -/
def condStep : List Bool → TT → Option (List Bool)
  | st, .IFDEF => some (false :: st)
  | st, .IFNDEF => some (false :: st)
  | false :: st, .ELSIF => some (false :: st)
  | _, .ELSIF => none
  | false :: st, .ELSE => some (true :: st)
  | _, .ELSE => none
  | _ :: st, .ENDIF => some st
  | _, .ENDIF => none
  | st, _ => some st

/-- The open conditionals behind a sequence of tokens; `none`: a directive has no conditional it belongs to. -/
def condRun : List Bool → List TT → Option (List Bool)
  | st, [] => some st
  | st, t :: r => (condStep st t).bind (condRun · r)

theorem condRun_append (st : List Bool) (a b : List TT) : condRun st (a ++ b) = (condRun st a).bind (condRun · b) := by
  induction a generalizing st with
  | nil => rfl
  | cons t a ih =>
    simp only [List.cons_append, condRun]
    cases condStep st t with
    | none => rfl
    | some x => simp [ih]

/-- The types of the tokens. -/
def types (l : List PTok) : List TT := l.map fun t => t.tok.ty

theorem condStep_other {st : List Bool} {ty : TT} (h : isCond ty = false) : condStep st ty = some st := by
  revert h
  cases ty <;> simp [isCond, condStep]

theorem condRun_skip {st : List Bool} {a b : List PTok} (h : Skips a b) : condRun st (types a) = condRun st (types b) := by
  obtain ⟨pre, rfl, hp⟩ := h
  induction pre with
  | nil => rfl
  | cons t pre ih =>
    simp only [List.cons_append, types, List.map_cons, condRun]
    rw [condStep_other (hp t (by simp)), Option.bind_some]
    exact ih (fun t ht => hp t (by simp [ht]))

theorem Skips.suffix {a b : List PTok} (h : Skips a b) : b <:+ a := by
  obtain ⟨pre, rfl, -⟩ := h
  exact ⟨pre, rfl⟩

theorem rest_suffix (lang : Nat) (input : Str) (f : Nat) :
    (∀ a b ns, textStar lang input f a = some (ns, b) → b <:+ a) ∧
    (∀ a b br, branches lang input f a = some (br, b) → b <:+ a) := by
  induction f with
  | zero =>
    refine ⟨?_, ?_⟩ <;> intro a b ns h
    · simp [textStar] at h
    · simp [branches] at h
  | succ f ih =>
    refine ⟨?_, ?_⟩ <;> intro a b ns h
    · cases a with
      | nil =>
        simp only [textStar, Option.some.injEq, Prod.mk.injEq] at h
        rw [← h.2]
      | cons t r =>
        rw [textStar] at h
        split at h
        · simp only [Option.bind_eq_bind, Option.bind_eq_some_iff, Option.pure_def, Option.some.injEq, Prod.mk.injEq] at h
          obtain ⟨⟨x, y⟩, h1, -, rfl⟩ := h
          exact (ih.1 _ _ _ h1).trans (List.suffix_cons _ _)
        · split at h
          · simp only [Option.bind_eq_bind, Option.bind_eq_some_iff, Option.pure_def, Option.some.injEq, Prod.mk.injEq] at h
            obtain ⟨⟨x, y⟩, h1, ⟨z, w⟩, h2, -, rfl⟩ := h
            exact ((ih.1 _ _ _ h2).trans (ih.2 _ _ _ h1)).trans (List.suffix_cons _ _)
          · split at h
            · simp only [Option.bind_eq_bind, Option.bind_eq_some_iff, Option.pure_def, Option.some.injEq, Prod.mk.injEq] at h
              obtain ⟨⟨x, y⟩, h1, ⟨z, w⟩, h2, -, rfl⟩ := h
              exact ((ih.1 _ _ _ h2).trans (directive_skips h1).suffix).trans (List.suffix_cons _ _)
            · simp only [Option.some.injEq, Prod.mk.injEq] at h
              rw [← h.2]
    · simp only [branches, Option.bind_eq_bind, Option.bind_eq_some_iff] at h
      obtain ⟨⟨i, ts⟩, h1, ⟨g, r⟩, h2, h⟩ := h
      refine List.IsSuffix.trans ?_ ((ih.1 _ _ _ h2).trans (expect_skips rfl h1).suffix)
      simp only at h
      split at h
      · simp only [Option.bind_eq_some_iff, Option.pure_def, Option.some.injEq, Prod.mk.injEq] at h
        obtain ⟨⟨x, y⟩, h3, -, rfl⟩ := h
        exact (ih.2 _ _ _ h3).trans (List.drop_suffix _ _)
      · simp only [Option.bind_eq_some_iff, Option.pure_def, Option.some.injEq, Prod.mk.injEq] at h
        obtain ⟨⟨x, y⟩, h3, ⟨z, w⟩, h4, -, rfl⟩ := h
        refine List.IsSuffix.trans ?_ ((ih.1 _ _ _ h3).trans (List.drop_suffix _ _))
        cases y with
        | nil => simp [expect] at h4
        | cons t y =>
          rw [expect] at h4
          split at h4
          · simp only [Option.some.injEq, Prod.mk.injEq] at h4
            obtain ⟨-, rfl⟩ := h4
            exact List.suffix_cons _ _
          · cases h4
      · simp only [Option.pure_def, Option.some.injEq, Prod.mk.injEq] at h
        obtain ⟨-, rfl⟩ := h
        exact List.drop_suffix _ _
      · cases h

theorem nesting (lang : Nat) (input : Str) (f : Nat) :
    (∀ a b ns st, textStar lang input f a = some (ns, b) → condRun st (types a) = condRun st (types b)) ∧
    (∀ a b br st, branches lang input f a = some (br, b) → condRun (false :: st) (types a) = condRun st (types b)) := by
  induction f with
  | zero =>
    refine ⟨?_, ?_⟩ <;> intro a b ns st h
    · simp [textStar] at h
    · simp [branches] at h
  | succ f ih =>
    refine ⟨?_, ?_⟩ <;> intro a b ns st h
    · cases a with
      | nil =>
        simp only [textStar, Option.some.injEq, Prod.mk.injEq] at h
        rw [h.2]
      | cons t r =>
        rw [textStar] at h
        split at h
        · rename_i hc
          simp only [Option.bind_eq_bind, Option.bind_eq_some_iff, Option.pure_def, Option.some.injEq, Prod.mk.injEq] at h
          obtain ⟨⟨x, y⟩, h1, -, rfl⟩ := h
          rw [condRun_skip (Skips.cons (t := t) (a := r) (b := r) ?_ (.refl _)), ih.1 _ _ _ _ h1]
          revert hc
          cases t.tok.ty <;> simp [copied, isCond]
        · split at h
          · rename_i hc
            simp only [Option.bind_eq_bind, Option.bind_eq_some_iff, Option.pure_def, Option.some.injEq, Prod.mk.injEq] at h
            obtain ⟨⟨x, y⟩, h1, ⟨z, w⟩, h2, -, rfl⟩ := h
            have : condStep st t.tok.ty = some (false :: st) := by rcases hc with hc | hc <;> simp [hc, condStep]
            simp only [types, List.map_cons, condRun, this, Option.bind_some]
            have e1 := ih.2 _ _ _ st h1
            have e2 := ih.1 _ _ _ st h2
            simp only [types] at e1 e2
            rw [e1, e2]
          · split at h
            · rename_i hc
              simp only [Option.bind_eq_bind, Option.bind_eq_some_iff, Option.pure_def, Option.some.injEq, Prod.mk.injEq] at h
              obtain ⟨⟨x, y⟩, h1, ⟨z, w⟩, h2, -, rfl⟩ := h
              rw [condRun_skip (Skips.cons (t := t) (a := r) (b := y) ?_ (directive_skips h1)), ih.1 _ _ _ _ h2]
              revert hc
              cases t.tok.ty <;> simp [startsDirective, isCond]
            · simp only [Option.some.injEq, Prod.mk.injEq] at h
              rw [h.2]
    · simp only [branches, Option.bind_eq_bind, Option.bind_eq_some_iff] at h
      obtain ⟨⟨i, ts⟩, h1, ⟨g, r⟩, h2, h⟩ := h
      rw [condRun_skip (expect_skips rfl h1), ih.1 _ _ _ _ h2]
      have hr : ∀ ty, isCond ty = true → nextTy r = ty → types r = ty :: types (r.drop 1) := by
        intro ty h0 h
        cases r with
        | nil => simp [nextTy] at h; subst h; simp [isCond] at h0
        | cons t r => simp [nextTy] at h; simp [types, h]
      simp only at h
      split at h
      · rename_i ht
        simp only [Option.bind_eq_some_iff, Option.pure_def, Option.some.injEq, Prod.mk.injEq] at h
        obtain ⟨⟨x, y⟩, h3, -, rfl⟩ := h
        rw [hr _ rfl ht]
        simp only [condRun, condStep, Option.bind_some]
        exact ih.2 _ _ _ _ h3
      · rename_i ht
        simp only [Option.bind_eq_some_iff, Option.pure_def, Option.some.injEq, Prod.mk.injEq] at h
        obtain ⟨⟨x, y⟩, h3, ⟨z, w⟩, h4, -, rfl⟩ := h
        rw [hr _ rfl ht]
        simp only [condRun, condStep, Option.bind_some]
        rw [ih.1 _ _ _ _ h3]
        cases y with
        | nil => simp [expect] at h4
        | cons t y =>
          rw [expect] at h4
          split at h4
          · rename_i he
            simp only [Option.some.injEq, Prod.mk.injEq] at h4
            obtain ⟨-, rfl⟩ := h4
            simp [types, condRun, he, condStep]
          · cases h4
      · rename_i ht
        simp only [Option.pure_def, Option.some.injEq, Prod.mk.injEq] at h
        obtain ⟨-, rfl⟩ := h
        rw [hr _ rfl ht]
        simp [condRun, condStep]
      · cases h

/-! ## no rule gives a token EOF -/

theorem setText_ty (t : Str) (o : Out) : (setText t o).ty = o.ty ∧ (setText t o).skip = o.skip := by
  unfold setText; split <;> simp

theorem pop_ty (o : Out) : (pop o).ty = o.ty ∧ (pop o).skip = o.skip := by
  unfold pop; split <;> simp

theorem rule_ty (m : Mode) (r : Rule) (hr : r ∈ rules m) (st : St) (t : Str) :
    (r.exec st t).skip = true ∨ (r.exec st t).ty ≠ .EOF := by
  cases m
  all_goals
    simp only [rules, defaultRules, directiveRules, defineRules, exprRules, defineBodyRules, macroArgsRules, ifdefRules, undefRules,
      nettypeRules, lineRules, timingRules, keywordsRules, inclRules, pragmaRules, protRules,
      List.map, List.cons_append, List.nil_append, List.mem_cons, List.not_mem_nil, or_false] at hr
    repeat' (rcases hr with rfl | hr)
    all_goals simp only [Rule.exec, List.foldl, ifLp, exprRp, exprComma]
    all_goals repeat' split
    all_goals simp [push, pop_ty, setText_ty, upd, updMeta, skip, chan, ty]

theorem lexFrom_ty {f : Nat} {st : St} {p : Nat × Nat} {i : Nat} {s : Str} {ts : List Tok} (h : lexFrom f st p i s = some ts) :
    ∀ t ∈ ts, t.ty ≠ .EOF := by
  induction f generalizing st p i s ts with
  | zero =>
    cases s with
    | nil => simp only [lexFrom, Option.some.injEq] at h; subst h; simp
    | cons c s => simp [lexFrom] at h
  | succ f ih =>
    cases s with
    | nil => simp only [lexFrom, Option.some.injEq] at h; subst h; simp
    | cons c s =>
      simp only [lexFrom] at h
      split at h
      · cases h
      · rename_i r n hp
        split at h
        · cases h
        · split at h
          · cases h
          · rename_i us hu
            have hr := rule_ty _ r (Antlr.pick_some hp).1 st (List.take n (c :: s))
            split at h
            · simp only [Option.some.injEq] at h
              subst h
              exact ih hu
            · rename_i hs
              simp only [Option.some.injEq] at h
              subst h
              intro t ht
              rcases List.mem_cons.1 ht with rfl | ht
              · exact hr.resolve_left hs
              · exact ih hu t ht

theorem group_last {hid ts : List Tok} (h : ∀ t ∈ ts, t.ty ≠ .EOF) {r : List PTok} (hr : r <:+ group hid ts) (he : nextTy r = .EOF) :
    types r = [.EOF] ∨ r = [] := by
  induction ts generalizing hid with
  | nil =>
    simp only [group] at hr
    rw [List.suffix_cons_iff] at hr
    rcases hr with rfl | hr
    · exact .inl rfl
    · exact .inr (List.suffix_nil.1 hr)
  | cons t ts ih =>
    rw [group] at hr
    split at hr
    · rw [List.suffix_cons_iff] at hr
      rcases hr with rfl | hr
      · exact absurd he (h t (by simp))
      · exact ih (fun t ht => h t (by simp [ht])) hr
    · exact ih (fun t ht => h t (by simp [ht])) hr

theorem types_group {hid ts : List Tok} : types (group hid ts) = (ts.filter (fun t => t.chan = .default)).map Tok.ty ++ [.EOF] := by
  induction ts generalizing hid with
  | nil => rfl
  | cons t ts ih =>
    rw [group]
    split
    · rename_i h; simp [types, h] at ih ⊢; exact ih
    · rename_i h; simp [types, h] at ih ⊢; exact ih

/-- The conditional directives of an accepted text are nested. -/
theorem accepted_nesting {lang : Nat} {s : Str} {t : Nodes} {ts : List Tok} (h : parseText lang s = some t) (hl : lex s = some ts) :
    condRun [] ((ts.filter (fun t => t.chan = .default)).map Tok.ty) = some [] := by
  simp only [parseText, hl, Option.bind_eq_bind, Option.bind_some, file, Option.bind_eq_some_iff] at h
  obtain ⟨⟨ns, r⟩, h1, h⟩ := h
  simp only at h
  split at h
  · rename_i he
    have e1 := (nesting _ _ _).1 _ _ _ [] h1
    have e2 := group_last (lexFrom_ty hl) ((rest_suffix _ _ _).1 _ _ _ h1) he
    have e3 : condRun [] (types r) = some [] := by
      rcases e2 with e | e
      · rw [e]; rfl
      · rw [e]; rfl
    rw [e3, types_group, condRun_append] at e1
    cases hx : condRun [] ((ts.filter (fun t => t.chan = .default)).map Tok.ty) with
    | none => rw [hx] at e1; simp at e1
    | some x => rw [hx] at e1; simpa [condRun, condStep] using e1
  · cases h

end Verif.Pp
