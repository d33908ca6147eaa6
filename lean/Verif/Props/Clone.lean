import Verif.ToPyExpr
/-!
# Copies of expressions (C44)
-/
namespace Verif

mutual
/-- Does the tree hold an `HdlExprNotImplemented` with a known position? -/
def Spec.posNI : Expr → Bool
  | .notImpl p => p.isSome
  | .arr _ l => Spec.posNIs l
  | .op _ _ l => Spec.posNIs l
  | .enumDef _ _ _ _ vs => Spec.posNIs vs
  | .physDef _ _ r _ vs => Spec.posNI r || Spec.posNIs vs
  | _ => false
def Spec.posNIs : List Expr → Bool
  | [] => false
  | e :: l => Spec.posNI e || Spec.posNIs l
end

def Spec.isNull : Expr → Bool
  | .null => true
  | _ => false

mutual
/-- Can the tree be copied: no class definition, no null operand (null values of enumerators and units are fine)? -/
def Spec.copyable : Expr → Bool
  | .null => false
  | .classDef .. => false
  | .arr _ l => Spec.copyables l
  | .op _ _ l => Spec.copyables l
  | .enumDef _ _ _ _ vs => Spec.copyablesOpt vs
  | .physDef _ _ r _ vs => Spec.copyable r && Spec.copyablesOpt vs
  | _ => true
def Spec.copyables : List Expr → Bool
  | [] => true
  | e :: l => Spec.copyable e && Spec.copyables l
def Spec.copyablesOpt : List Expr → Bool
  | [] => true
  | e :: l => (Spec.isNull e || Spec.copyable e) && Spec.copyablesOpt l
end

theorem isNull_iff (e : Expr) : Spec.isNull e = true ↔ e = .null := by cases e <;> simp [Spec.isNull]

theorem cloneListOpt_cons (e : Expr) (l : List Expr) (h : e ≠ .null) :
    cloneListOpt (e :: l) = (do let e ← e.clone; let l ← cloneListOpt l; pure (e :: l)) := by
  cases e <;> first | rfl | exact absurd rfl h

variable {dec : Str → Option Str}

theorem toPyPairs_cons (n : Option Str) (ns : List (Option Str)) (e : Expr) (l : List Expr) (h : e ≠ .null) :
    toPyPairs dec (n :: ns) (e :: l) = (do
      let n ← (match n with | some n => pyUnicode dec n | none => .ok .none)
      let v ← ubFail (toPy dec e)
      let l ← toPyPairs dec ns l
      return .tuple n v :: l) := by
  cases e <;> first | rfl | exact absurd rfl h

mutual
theorem clone_toPy : ∀ e : Expr, Spec.copyable e = true → ∃ e', e.clone = .ok e' ∧ (Spec.posNI e = false → toPy dec e' = toPy dec e) ∧
    (e' = .null ↔ e = .null)
  | .null, h => by simp [Spec.copyable] at h
  | .id p s, _ => ⟨_, by simp only [Expr.clone], fun _ => rfl, by simp⟩
  | .int p v, _ => ⟨_, by simp only [Expr.clone], fun _ => rfl, by simp⟩
  | .float p t, _ => ⟨_, by simp only [Expr.clone], fun _ => rfl, by simp⟩
  | .str p s, _ => ⟨_, by simp only [Expr.clone], fun _ => rfl, by simp⟩
  | .symb p k, _ => ⟨_, by simp only [Expr.clone]; rfl, fun _ => by simp [toPy], by simp⟩
  | .arr p l, h => by
    simp only [Spec.copyable] at h
    obtain ⟨l', h1, h2⟩ := cloneList_toPy l h
    refine ⟨.arr none l', by simp [Expr.clone, h1, bind, Except.bind, pure, Except.pure], fun hp => ?_, by simp⟩
    simp only [Spec.posNI] at hp
    simp only [toPy, h2 hp]
  | .op p o l, h => by
    simp only [Spec.copyable] at h
    obtain ⟨l', h1, h2⟩ := cloneList_toPy l h
    refine ⟨.op none o l', by simp [Expr.clone, h1, bind, Except.bind, pure, Except.pure], fun hp => ?_, by simp⟩
    simp only [Spec.posNI] at hp
    simp only [toPy, h2 hp]
  | .notImpl p, _ => by
    refine ⟨.notImpl none, by simp [Expr.clone], fun hp => ?_, by simp⟩
    cases p with
    | none => rfl
    | some p => simp [Spec.posNI] at hp
  | .enumDef p d b ns vs, h => by
    simp only [Spec.copyable] at h
    obtain ⟨l', h1, h2⟩ := cloneOpt_toPy vs h
    refine ⟨.enumDef none [] .null ns l', by simp [Expr.clone, h1, bind, Except.bind, pure, Except.pure], fun hp => ?_, by simp⟩
    simp only [Spec.posNI] at hp
    simp only [toPy, h2 hp]
  | .physDef p d r ns vs, h => by
    simp only [Spec.copyable, Bool.and_eq_true] at h
    obtain ⟨r', h3, h4, -⟩ := clone_toPy r h.1
    obtain ⟨l', h1, h2⟩ := cloneOpt_toPy vs h.2
    refine ⟨.physDef none [] r' ns l', by simp [Expr.clone, h1, h3, bind, Except.bind, pure, Except.pure], fun hp => ?_, by simp⟩
    simp only [Spec.posNI, Bool.or_eq_false_iff] at hp
    simp only [toPy, h2 hp.2, h4 hp.1]
  | .classDef .., h => by simp [Spec.copyable] at h
termination_by e => sizeOf e
theorem cloneList_toPy : ∀ l : List Expr, Spec.copyables l = true →
    ∃ l', cloneList l = .ok l' ∧ (Spec.posNIs l = false → toPyList dec l' = toPyList dec l)
  | [], _ => ⟨[], by simp [cloneList], fun _ => rfl⟩
  | e :: l, h => by
    simp only [Spec.copyables, Bool.and_eq_true] at h
    obtain ⟨e', h1, h2, -⟩ := clone_toPy e h.1
    obtain ⟨l', h3, h4⟩ := cloneList_toPy l h.2
    refine ⟨e' :: l', by simp [cloneList, h1, h3, bind, Except.bind, pure, Except.pure], fun hp => ?_⟩
    simp only [Spec.posNIs, Bool.or_eq_false_iff] at hp
    simp only [toPyList, h2 hp.1, h4 hp.2]
termination_by l => sizeOf l
theorem cloneOpt_toPy : ∀ l : List Expr, Spec.copyablesOpt l = true →
    ∃ l', cloneListOpt l = .ok l' ∧ (Spec.posNIs l = false → ∀ ns, toPyPairs dec ns l' = toPyPairs dec ns l)
  | [], _ => ⟨[], by simp [cloneListOpt], fun _ _ => rfl⟩
  | e :: l, h => by
    simp only [Spec.copyablesOpt, Bool.and_eq_true] at h
    obtain ⟨l', h3, h4⟩ := cloneOpt_toPy l h.2
    by_cases he : e = .null
    · refine ⟨.null :: l', by rw [he]; simp [cloneListOpt, h3, bind, Except.bind, pure, Except.pure], fun hp ns => ?_⟩
      rw [he] at hp ⊢
      simp only [Spec.posNIs, Bool.or_eq_false_iff] at hp
      cases ns with
      | nil => simp [toPyPairs]
      | cons n ns => simp only [toPyPairs, h4 hp.2]
    · have hc : Spec.copyable e = true := by
        have := h.1
        rw [Bool.or_eq_true, isNull_iff] at this
        exact this.resolve_left he
      obtain ⟨e', h1, h2, hn⟩ := clone_toPy e hc
      have he' : e' ≠ .null := fun hh => he (hn.1 hh)
      refine ⟨e' :: l', ?_, fun hp ns => ?_⟩
      · rw [cloneListOpt_cons e l he, h1, h3]; rfl
      · simp only [Spec.posNIs, Bool.or_eq_false_iff] at hp
        cases ns with
        | nil => simp [toPyPairs]
        | cons n ns =>
          rw [toPyPairs_cons n ns e l he, toPyPairs_cons n ns e' l' he', h2 hp.1, h4 hp.2]
termination_by l => sizeOf l
end

/-- C44: a tree that can be copied has a copy, and the copy is the same for the user (unless it holds an unsupported construct with
a known position, see `C44_violated_position`). -/
theorem C44_copy_equal_partial (dec : Str → Option Str) (e : Expr) (h : Spec.copyable e = true) (hp : Spec.posNI e = false) :
    ∃ e', e.clone = .ok e' ∧ toPy dec e' = toPy dec e := by
  obtain ⟨e', h1, h2, -⟩ := clone_toPy (dec := dec) e h
  exact ⟨e', h1, h2 hp⟩

/-- An array type: `t(7 downto 0)`. -/
def exType : Expr := .op none .INDEX [.id none (c! "t"), .op none .DOWNTO [.int none (.ofBig (.ofInt 7)), .int none (.ofBig (.ofInt 0))]]

example : Spec.copyable exType = true ∧ Spec.posNI exType = false := by decide

mutual
theorem clone_error : ∀ e : Expr, Spec.copyable e = false → ∃ x, e.clone = .error x
  | .null, _ => ⟨_, by simp only [Expr.clone]; rfl⟩
  | .id p s, h => by simp [Spec.copyable] at h
  | .int p v, h => by simp [Spec.copyable] at h
  | .float p t, h => by simp [Spec.copyable] at h
  | .str p s, h => by simp [Spec.copyable] at h
  | .symb p k, h => by simp [Spec.copyable] at h
  | .arr p l, h => by
    simp only [Spec.copyable] at h
    obtain ⟨x, hx⟩ := cloneList_error l h
    exact ⟨x, by simp [Expr.clone, hx, bind, Except.bind]⟩
  | .op p o l, h => by
    simp only [Spec.copyable] at h
    obtain ⟨x, hx⟩ := cloneList_error l h
    exact ⟨x, by simp [Expr.clone, hx, bind, Except.bind]⟩
  | .notImpl p, h => by simp [Spec.copyable] at h
  | .enumDef p d b ns vs, h => by
    simp only [Spec.copyable] at h
    obtain ⟨x, hx⟩ := cloneOpt_error vs h
    exact ⟨x, by simp [Expr.clone, hx, bind, Except.bind]⟩
  | .physDef p d r ns vs, h => by
    simp only [Spec.copyable, Bool.and_eq_false_iff] at h
    cases hr : Expr.clone r with
    | error x => exact ⟨x, by simp [Expr.clone, hr, bind, Except.bind]⟩
    | ok r' =>
      rcases h with h | h
      · obtain ⟨x, hx⟩ := clone_error r h
        rw [hr] at hx; cases hx
      · obtain ⟨x, hx⟩ := cloneOpt_error vs h
        exact ⟨x, by simp [Expr.clone, hr, hx, bind, Except.bind]⟩
  | .classDef .., _ => ⟨_, by simp only [Expr.clone]; rfl⟩
termination_by e => sizeOf e
theorem cloneList_error : ∀ l : List Expr, Spec.copyables l = false → ∃ x, cloneList l = .error x
  | [], h => by simp [Spec.copyables] at h
  | e :: l, h => by
    simp only [Spec.copyables, Bool.and_eq_false_iff] at h
    cases he : Expr.clone e with
    | error x => exact ⟨x, by simp [cloneList, he, bind, Except.bind]⟩
    | ok e' =>
      rcases h with h | h
      · obtain ⟨x, hx⟩ := clone_error e h
        rw [he] at hx; cases hx
      · obtain ⟨x, hx⟩ := cloneList_error l h
        exact ⟨x, by simp [cloneList, he, hx, bind, Except.bind]⟩
termination_by l => sizeOf l
theorem cloneOpt_error : ∀ l : List Expr, Spec.copyablesOpt l = false → ∃ x, cloneListOpt l = .error x
  | [], h => by simp [Spec.copyablesOpt] at h
  | e :: l, h => by
    simp only [Spec.copyablesOpt, Bool.and_eq_false_iff] at h
    by_cases hn : e = .null
    · rcases h with h | h
      · rw [hn] at h; simp [Spec.isNull] at h
      · obtain ⟨x, hx⟩ := cloneOpt_error l h
        exact ⟨x, by rw [hn]; simp [cloneListOpt, hx, bind, Except.bind]⟩
    · cases he : Expr.clone e with
      | error x => exact ⟨x, by rw [cloneListOpt_cons e l hn, he]; rfl⟩
      | ok e' =>
        have h' : Spec.copyable e = false ∨ Spec.copyablesOpt l = false := by
          rcases h with h | h
          · left; exact (Bool.or_eq_false_iff.1 h).2
          · right; exact h
        rcases h' with h | h
        · obtain ⟨x, hx⟩ := clone_error e h
          rw [he] at hx; cases hx
        · obtain ⟨x, hx⟩ := cloneOpt_error l h
          exact ⟨x, by rw [cloneListOpt_cons e l hn, he, hx]; rfl⟩
termination_by l => sizeOf l
end

/-- C44: exactly the trees without class definition and null operand have a copy. -/
theorem C44_copy_exists_iff (e : Expr) : (∃ e', e.clone = .ok e') ↔ Spec.copyable e = true := by
  constructor
  · rintro ⟨e', h⟩
    cases hc : Spec.copyable e with
    | true => rfl
    | false => obtain ⟨x, hx⟩ := clone_error e hc; rw [h] at hx; cases hx
  · intro h
    obtain ⟨e', h1, -⟩ := clone_toPy (dec := some) e h
    exact ⟨e', h1⟩

/-- C44 is violated: a struct or class type can not be copied; `struct {...} a, b;` fails with an exception. -/
theorem C44_violated_struct (p : Option CodePos) (d : Str) (bs : List Expr) (k : ClassKind) (ms : List Expr) (pk v : Bool) :
    (Expr.classDef p d bs k ms pk v).clone = .error (.runtime (c! "HdlClassDef copy constructor not implemented")) := by
  simp [Expr.clone]

/-- C44 is violated: the position of an unsupported construct is lost in the copy, which the user can see. -/
theorem C44_violated_position (dec : Str → Option Str) (p : CodePos) : ∃ e', (Expr.notImpl (some p)).clone = .ok e' ∧
    toPy dec e' ≠ toPy dec (.notImpl (some p)) :=
  ⟨.notImpl none, by simp [Expr.clone], by simp [toPy]⟩

end Verif
