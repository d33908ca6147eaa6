import Verif.PpBalanceLemmas
import Verif.PpStackLemmas
import Verif.PpTextLemmas
import Verif.Spec.PpNesting
/-!
# From the lexer and parser to the specifications of whole sources
-/
namespace Verif.Pp
open Verif.Spec.Pp (CondDir Nested Tail)

/-- The conditional directive of a token. -/
def dirOf : TT → Option CondDir
  | .IFDEF => some .opens
  | .IFNDEF => some .opens
  | .ELSIF => some .elsif
  | .ELSE => some .els
  | .ENDIF => some .endif
  | _ => none

/-- The same as `condStep` for directives. -/
def dirStep : List Bool → CondDir → Option (List Bool)
  | st, .opens => some (false :: st)
  | false :: st, .elsif => some (false :: st)
  | _, .elsif => none
  | false :: st, .els => some (true :: st)
  | _, .els => none
  | _ :: st, .endif => some st
  | _, .endif => none

def dirRun : List Bool → List CondDir → Option (List Bool)
  | st, [] => some st
  | st, d :: r => (dirStep st d).bind (dirRun · r)

theorem condRun_dirs (st : List Bool) (l : List TT) : condRun st l = dirRun st (l.filterMap dirOf) := by
  induction l generalizing st with
  | nil => rfl
  | cons t l ih =>
    rw [condRun]
    cases hd : dirOf t with
    | none =>
      rw [List.filterMap_cons_none hd, ← ih]
      have : condStep st t = some st := by
        revert hd
        cases t <;> simp [dirOf, condStep]
      rw [this]; rfl
    | some d =>
      rw [List.filterMap_cons_some hd, dirRun]
      have : condStep st t = dirStep st d := by
        revert hd
        cases t <;> simp [dirOf] <;> rintro rfl <;> rcases st with _ | ⟨_ | _, st⟩ <;> rfl
      rw [this]
      cases dirStep st d with
      | none => rfl
      | some x => simp [ih]

/-- What follows inside of an open conditional. -/
def TailOf : Bool → List CondDir → Prop
  | false, r => Tail r
  | true, r => r = [.endif]

theorem dirRun_nested (n : Nat) (l : List CondDir) (hn : l.length ≤ n) :
    (dirRun [] l = some [] → Nested l) ∧
    (∀ b st, dirRun (b :: st) l = some [] → ∃ g r s, l = g ++ r ++ s ∧ Nested g ∧ TailOf b r ∧ dirRun st s = some [] ∧ s.length < l.length) := by
  induction n generalizing l with
  | zero =>
    have : l = [] := by cases l with
      | nil => rfl
      | cons => simp at hn
    subst this
    exact ⟨fun _ => .nil, fun b st h => by simp [dirRun] at h⟩
  | succ n ih =>
    cases l with
    | nil => exact ⟨fun _ => .nil, fun b st h => by simp [dirRun] at h⟩
    | cons d t =>
      have ht : t.length ≤ n := by simp at hn; omega
      cases d with
      | opens =>
        constructor
        · intro h
          obtain ⟨g, r, s, rfl, hg, hr, hs, hl⟩ := (ih t ht).2 false [] h
          exact .block hg hr ((ih s (by omega)).1 hs)
        · intro b st h
          obtain ⟨g, r, s, rfl, hg, hr, hs, hl⟩ := (ih t ht).2 false (b :: st) h
          obtain ⟨g', r', s', rfl, hg', hr', hs', hl'⟩ := (ih s (by omega)).2 b st hs
          refine ⟨.opens :: g ++ r ++ g', r', s', by simp, .block hg hr hg', hr', hs', ?_⟩
          simp at hl ⊢; omega
      | elsif =>
        refine ⟨fun h => by simp [dirRun, dirStep] at h, fun b st h => ?_⟩
        cases b with
        | true => simp [dirRun, dirStep] at h
        | false =>
          obtain ⟨g, r, s, rfl, hg, hr, hs, hl⟩ := (ih t ht).2 false st h
          exact ⟨[], .elsif :: g ++ r, s, by simp, .nil, .elsif hg hr, hs, by simp at hl ⊢; omega⟩
      | els =>
        refine ⟨fun h => by simp [dirRun, dirStep] at h, fun b st h => ?_⟩
        cases b with
        | true => simp [dirRun, dirStep] at h
        | false =>
          obtain ⟨g, r, s, rfl, hg, hr, hs, hl⟩ := (ih t ht).2 true st h
          have hr : r = [.endif] := hr
          subst hr
          exact ⟨[], .els :: g ++ [.endif], s, by simp, .nil, (show Tail _ from .els hg), hs, by simp at hl ⊢; omega⟩
      | endif =>
        refine ⟨fun h => by simp [dirRun, dirStep] at h, fun b st h => ?_⟩
        refine ⟨[], [.endif], t, rfl, .nil, ?_, h, by simp⟩
        cases b
        · exact .endif
        · rfl

/-! ## macro texts -/

open Verif.Spec.Pp

theorem dropWhile_twice {α : Type} (p : α → Bool) (s : List α) : (s.dropWhile p).dropWhile p = s.dropWhile p := by
  induction s with
  | nil => rfl
  | cons c s ih =>
    by_cases h : p c = true
    · simp [h, ih]
    · simp [h]

theorem dropWhile_app {α : Type} {p : α → Bool} {w : List α} (hw : w.all p = true) (s : List α) : (w ++ s).dropWhile p = s.dropWhile p := by
  induction w with
  | nil => rfl
  | cons c w ih =>
    simp only [List.all_cons, Bool.and_eq_true] at hw
    simp [hw.1, ih hw.2]

theorem dropWhile_split {α : Type} (p : α → Bool) (s : List α) : ∃ w, w.all p = true ∧ s = w ++ s.dropWhile p :=
  ⟨s.takeWhile p, by simp, by simp⟩

theorem dropWhile_end {α : Type} {p : α → Bool} {w : List α} (hw : w.all p = true) (s : List α) :
    ∃ w', w'.all p = true ∧ (s ++ w).dropWhile p = s.dropWhile p ++ w' := by
  induction s with
  | nil =>
    refine ⟨[], rfl, ?_⟩
    simp only [List.nil_append, List.dropWhile_nil]
    have := dropWhile_app hw []
    simpa using this
  | cons c s ih =>
    by_cases h : p c = true
    · simpa [h] using ih
    · exact ⟨w, hw, by simp [h]⟩

theorem strip_left {w : Str} (hw : w.all white = true) (s : Str) : strip (w ++ s) = strip s := by
  unfold strip; rw [dropWhile_app hw]

theorem strip_right {w : Str} (hw : w.all white = true) (s : Str) : strip (s ++ w) = strip s := by
  unfold strip
  obtain ⟨w', h1, h2⟩ := dropWhile_end hw s
  rw [h2, List.reverse_append, dropWhile_app (by simpa using h1)]

theorem mem_wsChars : (fun c => decide (c ∈ wsChars)) = white := by
  funext c
  rw [Bool.eq_iff_iff]
  simp [wsChars, white]
  tauto

theorem strip_rtrim (s : Str) : strip (rtrim s wsChars) = strip s := by
  rw [rtrim_eq, mem_wsChars]
  obtain ⟨w, h1, h2⟩ := dropWhile_split white s.reverse
  have : s = (s.reverse.dropWhile white).reverse ++ w.reverse := by
    rw [← List.reverse_append, ← h2]; simp
  conv => rhs; rw [this]
  rw [strip_right (by simpa using h1)]

theorem logical_append (a b : List BodyPiece) : logical (a ++ b) = logical a ++ logical b := by
  simp [logical]

theorem logical_esc {l : List BodyPiece} (h : l.all (· == .esc) = true) : (logical l).all white = true := by
  induction l with
  | nil => rfl
  | cons x l ih =>
    simp only [List.all_cons, Bool.and_eq_true, beq_iff_eq] at h
    obtain ⟨rfl, h⟩ := h
    have := ih h
    simp only [logical, List.flatMap_cons, List.all_append, Bool.and_eq_true] at this ⊢
    exact ⟨by decide, this⟩

theorem core_split (l : List BodyPiece) : ∃ a b, a.all (· == .esc) = true ∧ b.all (· == .esc) = true ∧ l = a ++ core l ++ b := by
  obtain ⟨a, h1, h2⟩ := dropWhile_split (· == BodyPiece.esc) l
  obtain ⟨b, h3, h4⟩ := dropWhile_split (· == BodyPiece.esc) (l.dropWhile (· == .esc)).reverse
  refine ⟨a, b.reverse, h1, by simpa using h3, ?_⟩
  have : l.dropWhile (· == .esc) = core l ++ b.reverse := by
    rw [core, ← List.reverse_append, ← h4]; simp
  rw [List.append_assoc, ← this]; exact h2

theorem strip_core (l : List BodyPiece) : strip (logical (core l)) = strip (logical l) := by
  obtain ⟨a, b, h1, h2, h3⟩ := core_split l
  conv => rhs; rw [h3]
  rw [logical_append, logical_append, strip_right (logical_esc h2), strip_left (logical_esc h1)]

theorem logical_with (l : List BodyPiece) : l.flatMap (pieceWith ['\n']) = logical l :=
  List.flatMap_congr fun x _ => by cases x <;> rfl

/-- What the code does with the macro text. -/
theorem bodyNode_text {l : List BodyPiece} (hl : ∀ x ∈ l, (match x with
      | .plain s => '\\' ∉ s
      | .str p => p.all StrPiece.ok = true
      | .esc => True)) (hn : l.all pieceNoNl = true) (line col : Nat) (name : Str) (ps : Option (List Param)) :
    ∃ m, defineBody ⟨line, col, name, ps, bodyNode l⟩ = .ok m ∧ strip m = strip (logical l) := by
  have hsub : ∀ x ∈ core l, x ∈ l := by
    obtain ⟨a, b, -, -, h⟩ := core_split l
    intro x hx
    rw [h]; simp [hx]
  unfold bodyNode
  split
  · rename_i h0
    refine ⟨[], rfl, ?_⟩
    rw [← strip_core, h0]; rfl
  · refine ⟨rtrim (logical (core l)) wsChars, ?_, ?_⟩
    · unfold defineBody
      simp only
      rw [removeComment_body (fun x hx => hl x (hsub x hx)) (by
        rw [List.all_eq_true] at hn ⊢
        exact fun x hx => hn x (hsub x hx)), logical_with]
      rfl
    · rw [strip_rtrim, strip_core]

theorem bodyOk_mem {b : List BodyPiece} (h : bodyOk b = true) : ∀ x ∈ b, (match x with
      | .plain s => '\\' ∉ s
      | .str p => p.all StrPiece.ok = true
      | .esc => True) := by
  intro x hx
  simp only [bodyOk, Bool.and_eq_true, List.all_eq_true] at h
  have := h.1 x hx
  cases x with
  | plain s =>
    simp only [BodyPiece.ok, Bool.and_eq_true, List.all_eq_true] at this
    intro hm
    have := this.1.1.1.2 _ hm
    simp at this
  | str l => simp only [BodyPiece.ok, strOk, Bool.and_eq_true] at this; exact this.1
  | esc => trivial

theorem noNl_all {b : List BodyPiece} (h : (b.all fun x => match x with
    | .str l => l.all (· != .esc '\n')
    | _ => true) = true) : b.all pieceNoNl = true := by
  rw [List.all_eq_true] at h ⊢
  intro x hx
  have := h x hx
  cases x <;> first | rfl | exact this

/-- A macro definition as read by the parser. -/
def DefIs (x : Str × DefTail) (d : DefineNode) : Prop :=
  d.name = x.1 ∧ ((d.params.getD []).map fun p => (p.name, if p.hasDef then some p.defVal else none)) = x.2.formals ∧
  ∃ m, defineBody d = .ok m ∧ strip m = strip x.2.logical

theorem define_is {lang : Nat} {name : Str} {tail : DefTail} (h : tail.ok lang = true) (hs : tail.oneLineStrings = true) (l c : Nat) :
    DefIs (name, tail) ⟨l, c, name, tail.params, tail.node⟩ := by
  refine ⟨rfl, ?_, ?_⟩
  · cases tail with
    | none => rfl
    | body => rfl
    | args fs ws b =>
      cases fs with
      | nil => rfl
      | cons f fs =>
        simp only [DefTail.params, DefTail.formals, Option.getD_some, List.map_map]
        refine List.map_congr_left fun f _ => ?_
        obtain ⟨_, _, _, d⟩ := f
        cases d <;> rfl
  · cases tail with
    | none => exact ⟨[], rfl, rfl⟩
    | body ws b =>
      simp only [DefTail.ok, Bool.and_eq_true] at h
      exact bodyNode_text (bodyOk_mem h.1.2) (noNl_all hs) _ _ _ _
    | args fs ws b =>
      simp only [DefTail.ok, Bool.and_eq_true] at h
      simp only [DefTail.node]
      split
      · exact bodyNode_text (bodyOk_mem h.1.2) (noNl_all hs) _ _ _ _
      · obtain ⟨m, h1, h2⟩ := bodyNode_text (l := .plain ws :: b) (by
          intro x hx
          rcases List.mem_cons.1 hx with rfl | hx
          · intro hm
            have := List.all_eq_true.1 h.1.1.2 _ hm
            simp [blank] at this
          · exact bodyOk_mem h.1.2 x hx) (by
            rw [List.all_cons, noNl_all hs]; rfl) l c name (DefTail.params (.args fs ws b))
        refine ⟨m, h1, ?_⟩
        rw [h2]
        show strip (ws ++ logical b) = _
        rw [strip_left]
        · rfl
        · rw [List.all_eq_true]
          intro c hc
          have := List.all_eq_true.1 h.1.1.2 _ hc
          simp only [blank, Bool.or_eq_true] at this
          simp only [white, Bool.or_eq_true]
          tauto

mutual
theorem item_defs {lang : Nat} (i : Item) (p : Nat × Nat) (rest : Str) (h : i.ok lang rest = true)
    (hs : ∀ x ∈ i.defs, x.2.oneLineStrings = true) : List.Forall₂ DefIs i.defs (nodeDefs (i.node p)) := by
  match i with
  | .code _ => exact .nil
  | .str _ => exact .nil
  | .lineComment _ _ => exact .nil
  | .comment _ => exact .nil
  | .define ws name tail eol =>
    simp only [Item.ok, Bool.and_eq_true] at h
    exact .cons (define_is h.1.2 (hs (name, tail) (by simp [Item.defs])) _ _) .nil
  | .undef _ _ _ => exact .nil
  | .undefineall _ _ => exact .nil
  | .simple _ _ _ => exact .nil
  | .call _ => exact .nil
  | .callArgs _ _ _ => exact .nil
  | .incl _ _ _ _ => exact .nil
  | .cond neg ws name g r =>
    simp only [Item.ok, Bool.and_eq_true] at h
    simp only [Item.defs, Item.node, nodeDefs, branchDefs, List.mem_append] at hs ⊢
    exact List.rel_append (items_defs g _ _ h.1.2 fun x hx => hs x (.inl hx)) (rest_defs r _ _ h.2 fun x hx => hs x (.inr hx))
theorem items_defs {lang : Nat} (is : Items) (p : Nat × Nat) (rest : Str) (h : is.ok lang rest = true)
    (hs : ∀ x ∈ is.defs, x.2.oneLineStrings = true) : List.Forall₂ DefIs is.defs (nodesDefs (is.tree p)) := by
  match is with
  | .nil => exact .nil
  | .cons i r =>
    simp only [Items.ok, Bool.and_eq_true] at h
    simp only [Items.defs, Items.tree, nodesDefs, List.mem_append] at hs ⊢
    exact List.rel_append (item_defs i _ _ h.1.1 fun x hx => hs x (.inl hx)) (items_defs r _ _ h.1.2 fun x hx => hs x (.inr hx))
theorem rest_defs {lang : Nat} (r : Rest) (p : Nat × Nat) (rest : Str) (h : r.ok lang rest = true)
    (hs : ∀ x ∈ r.defs, x.2.oneLineStrings = true) : List.Forall₂ DefIs r.defs (branchDefs (r.tree p)) := by
  match r with
  | .endif _ => exact .nil
  | .els sep g sep' =>
    simp only [Rest.ok, Bool.and_eq_true] at h
    simp only [Rest.defs, Rest.tree, branchDefs] at hs ⊢
    exact items_defs g _ _ h.1.2 hs
  | .elif ws name g r =>
    simp only [Rest.ok, Bool.and_eq_true] at h
    simp only [Rest.defs, Rest.tree, branchDefs, List.mem_append] at hs ⊢
    exact List.rel_append (items_defs g _ _ h.1.2 fun x hx => hs x (.inl hx)) (rest_defs r _ _ h.2 fun x hx => hs x (.inr hx))
end

/-! ## sources which differ in code only -/

mutual
theorem items_bare (is : Items) (p q : Nat × Nat) : nodesBare (is.tree p) = nodesBare (is.bare.tree q) := by
  match is with
  | .nil => rfl
  | .cons i r =>
    have ih := fun p q => items_bare r p q
    match i with
    | .code _ => exact ih _ _
    | .str _ => exact ih _ _
    | .lineComment _ _ => exact ih _ _
    | .comment _ => exact ih _ _
    | .define _ name tail _ => exact congrArg (Nodes.cons _) (ih _ _)
    | .undef _ name _ => exact congrArg (Nodes.cons _) (ih _ _)
    | .undefineall _ _ => exact congrArg (Nodes.cons _) (ih _ _)
    | .simple kw _ _ => exact congrArg (Nodes.cons _) (ih _ _)
    | .call name => exact congrArg (Nodes.cons _) (ih _ _)
    | .callArgs name ws args => exact congrArg (Nodes.cons _) (ih _ _)
    | .incl _ file _ _ => exact congrArg (Nodes.cons _) (ih _ _)
    | .cond neg ws name g t =>
      simp only [Items.tree, Items.bare, Item.bare, Item.node, nodesBare, nodeBare, branchBare]
      rw [items_bare g _ (after q ((if neg then c! "`ifndef" else c! "`ifdef") ++ [] ++ name)), rest_bare t, ih]
theorem rest_bare (r : Rest) (p q : Nat × Nat) : branchBare (r.tree p) = branchBare (r.bare.tree q) := by
  match r with
  | .endif _ => rfl
  | .els sep g sep' => exact congrArg (Branches.els 0) (items_bare g _ _)
  | .elif ws name g r =>
    simp only [Rest.tree, Rest.bare, branchBare]
    rw [items_bare g _ (after q (c! "`elsif" ++ [] ++ name)), rest_bare r]
end

end Verif.Pp
