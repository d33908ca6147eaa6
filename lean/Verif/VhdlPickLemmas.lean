import Verif.VhdlNumLemmas
import Verif.KernelRfl
/-!
# The choice between the rules of the VHDL lexer
-/
namespace Verif.Vhdl
open Verif.Antlr Verif.Antlr.Re Verif.Spec Verif.Spec.Lrm

/-! ## Steps of the lexer -/

theorem rules_noEof : rules.all (fun q => noEof q.re) = true := by decide +kernel
theorem rules_nonnull : rules.all (fun q => !q.re.nullable) = true := by decide +kernel

theorem mem_rulesAt {s : Str} {q : LRule} (h : q ∈ rulesAt s) : q ∈ rules ∧ (q.ty = .CHARACTER_LITERAL → charGuard s = true) := by
  obtain ⟨h1, h2⟩ := List.mem_filter.1 h
  refine ⟨h1, fun e => ?_⟩
  rw [e] at h2; simpa using h2

theorem pick_pos {s : Str} {r : LRule} {n : Nat} (h : pick LRule.re (rulesAt s) (syms s) = some (r, n)) : 0 < n := by
  obtain ⟨hr, hl⟩ := pick_some h
  have hn := List.all_eq_true.1 rules_nonnull r (mem_rulesAt hr).1
  rcases Nat.eq_zero_or_pos n with rfl | h0
  · have := (longest_some_iff.1 hl).2.1
    rw [List.take_zero, ← nullable_iff] at this
    simp [this] at hn
  · exact h0

theorem lexFrom_congr {f g : Nat} {s : Str} (hf : s.length ≤ f) (hg : s.length ≤ g) : lexFrom f s = lexFrom g s := by
  induction f generalizing g s with
  | zero =>
    have : s = [] := List.length_eq_zero_iff.1 (by omega)
    subst this
    cases g <;> simp [lexFrom]
  | succ f ih =>
    cases s with
    | nil => cases g <;> simp [lexFrom]
    | cons c s =>
      cases g with
      | zero => simp at hg
      | succ g =>
        simp only [lexFrom]
        cases hp : pick LRule.re (rulesAt (c :: s)) (syms (c :: s)) with
        | none => rfl
        | some x =>
          obtain ⟨r, n⟩ := x
          have hpos := pick_pos hp
          simp only
          rw [ih (g := g)]
          · simp at hf ⊢; omega
          · simp at hg ⊢; omega

theorem lex_nil : lex [] = some [] := rfl

theorem lex_step {s : Str} {r : LRule} {n : Nat} (hs : s ≠ []) (hp : pick LRule.re (rulesAt s) (syms s) = some (r, n)) :
    lex s = match lex (s.drop n) with
      | none => none
      | some ts => some (if r.hide then ts else ⟨r.ty, utf8 (s.take n)⟩ :: ts) := by
  have hpos := pick_pos hp
  cases s with
  | nil => exact absurd rfl hs
  | cons c s =>
    rw [lex, List.length_cons, lexFrom]
    · simp only [hp]
      rw [lexFrom_congr (g := ((c :: s).drop n).length) (by simp; omega) (Nat.le_refl _), ← lex]
      cases lex (List.drop n (c :: s)) <;> rfl
    · simp

theorem lex_none {s : Str} (hs : s ≠ []) (hp : pick LRule.re (rulesAt s) (syms s) = none) : lex s = none := by
  cases s with
  | nil => exact absurd rfl hs
  | cons c s =>
    rw [lex, List.length_cons, lexFrom]
    · simp only [hp]
    · simp

/-- The rule `r` is chosen and takes `w`. -/
theorem choose {l1 l2 : List LRule} {r : LRule} {w s : Str} (hr : rules = l1 ++ r :: l2)
    (hg : r.ty = .CHARACTER_LITERAL → charGuard (w ++ s) = true) (hL : L r.re w)
    (hmax : ∀ q ∈ rules, (q.ty = .CHARACTER_LITERAL → charGuard (w ++ s) = true) → ∀ u, u <+: w ++ s → L q.re u → u.length ≤ w.length)
    (hfirst : ∀ q ∈ l1, ¬ L q.re w) : pick LRule.re (rulesAt (w ++ s)) (syms (w ++ s)) = some (r, w.length) := by
  have hk : (r.ty != VT.CHARACTER_LITERAL || charGuard (w ++ s)) = true := by
    by_cases e : r.ty = .CHARACTER_LITERAL
    · rw [hg e]; simp
    · simp [e]
  have hgq : ∀ {q : LRule}, (q.ty != VT.CHARACTER_LITERAL || charGuard (w ++ s)) = true → (q.ty = .CHARACTER_LITERAL → charGuard (w ++ s) = true) := by
    intro q h e; rw [e] at h; simpa using h
  have hno : ∀ {q : LRule}, q ∈ rules → noEof q.re = true := fun h => List.all_eq_true.1 rules_noEof _ h
  have hr' : r ∈ rules := by rw [hr]; simp
  rw [rulesAt, hr, List.filter_append, List.filter_cons, if_pos hk]
  refine pick_max (re := LRule.re) (longest_max (hno hr') (List.prefix_append _ _) hL (hmax r hr' hg)) ?_ ?_
  · intro q hq m hm
    obtain ⟨h1, h2⟩ := List.mem_filter.1 hq
    have hq' : q ∈ rules := by rw [hr]; simp [h1]
    exact longest_le (hno hq') (hmax q hq' (hgq h2)) hm
  · intro q hq m hm
    obtain ⟨h1, h2⟩ := List.mem_filter.1 hq
    have hq' : q ∈ rules := by rw [hr]; simp [h1]
    have hle := longest_le (hno hq') (hmax q hq' (hgq h2)) hm
    rcases Nat.lt_or_eq_of_le hle with h | h
    · exact h
    · subst h
      have := (longest_some_iff.1 hm).2.1
      rw [take_syms (by simp), List.take_left] at this
      exact absurd this (hfirst q h1)

/-! ## Texts between delimiters -/

/-- `body` as a relation. -/
inductive Body (q : Char) (p : Char → Bool) : Str → Prop
  | nil : Body q p []
  | ch {c : Char} {s : Str} (hc : c ≠ q) (hp : p c = true) (h : Body q p s) : Body q p (c :: s)
  | qq {s : Str} (h : Body q p s) : Body q p (q :: q :: s)

theorem body_Body {q : Char} {p : Char → Bool} {v : Str} (h : body q p v = true) : Body q p v := by
  fun_induction body q p v with
  | case1 => exact .nil
  | case2 c => simp at h; exact .ch h.1 h.2 .nil
  | case3 c d s e ih =>
    simp at h e
    obtain ⟨rfl, h⟩ := h
    subst e
    exact .qq (ih h)
  | case4 c d s e ih =>
    simp at h e
    exact .ch e h.1 (ih h.2)

theorem Body.mono {q : Char} {p p' : Char → Bool} {v : Str} (h : Body q p v) (hp : ∀ c ∈ v, c ≠ q → p c = true → p' c = true) : Body q p' v := by
  induction h with
  | nil => exact .nil
  | ch hc h1 h ih => exact .ch hc (hp _ (by simp) hc h1) (ih fun c hc => hp c (by simp [hc]))
  | qq h ih => exact .qq (ih fun c hc => hp c (by simp [hc]))

/-- The text ends at the first delimiter that is not doubled. -/
theorem Body.upto {q : Char} {p p' : Char → Bool} {v : Str} (hv : Body q p v) : ∀ {v' s : Str}, NotHead (· == q) s → Body q p' v' →
    v' ++ [q] <+: v ++ q :: s → v'.length ≤ v.length := by
  induction hv with
  | nil =>
    intro v' s hs hv' hp
    cases hv' with
    | nil => simp
    | ch hc _ _ =>
      obtain ⟨t, e⟩ := hp
      exact absurd (List.cons.inj e).1 hc
    | @qq s' h =>
      obtain ⟨t, e⟩ := hp
      have e := (List.cons.inj e).2
      cases s with
      | nil => simp at e
      | cons d s =>
        have h1 := (List.cons.inj e).1
        have := hs d (by simp)
        subst h1; simp at this
  | @ch c v hc hp h ih =>
    intro v' s hs hv' hpre
    cases hv' with
    | nil => simp
    | @ch c' v'' hc' hp' h' =>
      obtain ⟨t, e⟩ := hpre
      have := ih hs h' ⟨t, (List.cons.inj e).2⟩
      simp; omega
    | @qq v'' h' =>
      obtain ⟨t, e⟩ := hpre
      exact absurd (List.cons.inj e).1.symm hc
  | @qq v h ih =>
    intro v' s hs hv' hpre
    cases hv' with
    | nil => simp
    | @ch c' v'' hc' hp' h' =>
      obtain ⟨t, e⟩ := hpre
      exact absurd (List.cons.inj e).1 hc'
    | @qq v'' h' =>
      obtain ⟨t, e⟩ := hpre
      have := ih hs h' ⟨t, (List.cons.inj (List.cons.inj e).2).2⟩
      simp; omega

theorem L_body {q : Char} {p : Char → Bool} {r : Re} (hr : ∀ u, L r u ↔ (∃ c, u = [c] ∧ p c = true) ∨ u = [q, q]) (hp : p q = false) (v : Str) :
    L (star r) v ↔ Body q p v := by
  constructor
  · intro h
    refine L_star_ind (P := Body q p) .nil ?_ h
    intro u v hu _ ih
    rcases (hr u).1 hu with ⟨c, rfl, hc⟩ | rfl
    · refine .ch ?_ hc ih
      rintro rfl; rw [hp] at hc; cases hc
    · exact .qq ih
  · intro h
    induction h with
    | nil => exact L_star_nil
    | @ch c s hc h1 h ih => exact L_star_cons (u := [c]) ((hr _).2 (.inl ⟨c, rfl, h1⟩)) ih
    | @qq s h ih => exact L_star_cons (u := [q, q]) ((hr _).2 (.inr rfl)) ih

/-- Between two characters. -/
theorem L_between {a b : Char} {r : Re} {w : Str} : L (seq (set [a]) (seq r (set [b]))) w ↔ ∃ v, w = a :: (v ++ [b]) ∧ L r v := by
  constructor
  · intro h
    obtain ⟨x, y, rfl, h1, h2⟩ := L_seq.1 h
    obtain ⟨v, z, rfl, h3, h4⟩ := L_seq.1 h2
    obtain ⟨c, rfl, hc⟩ := L_set.1 h1
    obtain ⟨d, rfl, hd⟩ := L_set.1 h4
    simp at hc hd; subst hc hd
    exact ⟨v, rfl, h3⟩
  · rintro ⟨v, rfl, h⟩
    exact L_seq.2 ⟨[a], v ++ [b], rfl, L_set.2 ⟨a, rfl, by simp⟩, L_seq.2 ⟨v, [b], rfl, h, L_set.2 ⟨b, rfl, by simp⟩⟩⟩

theorem L_extended (w : Str) : L EXTENDED_IDENTIFIERr w ↔ ∃ v, w = '\\' :: (v ++ ['\\']) ∧ v ≠ [] ∧ Body '\\' graphicL v := by
  have hr : ∀ u, L (alt GRAPHIC_CHARACTER (lit ['\\', '\\'])) u ↔ (∃ c, u = [c] ∧ graphicL c = true) ∨ u = ['\\', '\\'] := by
    intro u; rw [L_alt, cls_graphic, L_lit]
  rw [EXTENDED_IDENTIFIERr, L_between]
  have key : ∀ v, L (plus (alt GRAPHIC_CHARACTER (lit ['\\', '\\']))) v ↔ v ≠ [] ∧ Body '\\' graphicL v := by
    intro v
    rw [plus, L_seq]
    constructor
    · rintro ⟨a, b, rfl, h1, h2⟩
      have := (L_body hr graphicL_bs _).1 (L_star_cons h1 h2)
      refine ⟨?_, this⟩
      rcases (hr a).1 h1 with ⟨c, rfl, hc⟩ | rfl <;> simp
    · rintro ⟨hne, h⟩
      cases h with
      | nil => exact absurd rfl hne
      | @ch c s hc h1 h => exact ⟨[c], s, rfl, (hr _).2 (.inl ⟨c, rfl, h1⟩), (L_body hr graphicL_bs _).2 h⟩
      | @qq s h => exact ⟨['\\', '\\'], s, rfl, (hr _).2 (.inr rfl), (L_body hr graphicL_bs _).2 h⟩
  simp only [key]

/-- The characters of string literals. -/
def strL (c : Char) : Bool := graphicL c || c == '\\'
theorem L_string (w : Str) : L STRING_LITERALr w ↔ ∃ v, w = '"' :: (v ++ ['"']) ∧ Body '"' strL v := by
  have hr : ∀ u, L (alts [GRAPHIC_CHARACTER, lit ['"', '"'], set ['\\']]) u ↔ (∃ c, u = [c] ∧ strL c = true) ∨ u = ['"', '"'] := by
    intro u
    rw [alts, alts, alts, L_alt, L_alt, cls_graphic, L_lit, L_set]
    · constructor
      · rintro (⟨c, rfl, h⟩ | rfl | ⟨c, rfl, h⟩)
        · exact .inl ⟨c, rfl, by simp [strL, h]⟩
        · exact .inr rfl
        · exact .inl ⟨c, rfl, by simp at h; simp [strL, h]⟩
      · rintro (⟨c, rfl, h⟩ | rfl)
        · simp only [strL, Bool.or_eq_true, beq_iff_eq] at h
          rcases h with h | h
          · exact .inl ⟨c, rfl, h⟩
          · exact .inr (.inr ⟨c, rfl, by simp [h]⟩)
        · exact .inr (.inl rfl)
    · simp
    · simp
  rw [STRING_LITERALr, L_between]
  simp only [L_body hr (by decide +kernel)]

/-- The characters of character literals. -/
def chrL (c : Char) : Bool := graphicL c || (c == '"' || c == '\\')
theorem L_char (w : Str) : L CHARACTER_LITERALr w ↔ ∃ c, w = ['\'', c, '\''] ∧ chrL c = true := by
  have hr : Cls (alts [GRAPHIC_CHARACTER, set ['"'], set ['\\']]) chrL := by
    refine (cls_alt cls_graphic (cls_alt (cls_set _) (cls_set _))).congr fun c => ?_
    simp [chrL]
    rfl
  rw [CHARACTER_LITERALr, L_between]
  constructor
  · rintro ⟨v, rfl, h⟩
    obtain ⟨c, rfl, hc⟩ := (hr v).1 h
    exact ⟨c, rfl, hc⟩
  · rintro ⟨c, rfl, hc⟩
    exact ⟨[c], rfl, (hr _).2 ⟨c, rfl, hc⟩⟩

theorem L_bitString (w : Str) : L BIT_STRING_LITERALr w ↔ ∃ n b v, w = n ++ (b ++ '"' :: (v ++ ['"'])) ∧
    Opt (fun n => grouped digit n = true) n ∧ b.map Char.toLower ∈ baseSpecifiers ∧ v.all graphicL = true := by
  have hu : graphicL '_' = true := by decide +kernel
  have hv : ∀ v, L (Re.opt (seq GRAPHIC_CHARACTER (star (seq (opt (set ['_'])) GRAPHIC_CHARACTER)))) v ↔ v.all graphicL = true := by
    intro v
    rw [L_opt, L_seq]
    constructor
    · rintro (⟨a, b, rfl, h1, h2⟩ | rfl)
      · obtain ⟨c, rfl, hc⟩ := (cls_graphic a).1 h1
        rw [List.all_append, Bool.and_eq_true]
        refine ⟨by simp [hc], ?_⟩
        refine L_star_ind (P := fun b => b.all graphicL = true) rfl ?_ h2
        intro x y hx _ ih
        rw [List.all_append, ih, Bool.and_true]
        obtain ⟨o, g, rfl, h3, h4⟩ := L_seq.1 hx
        obtain ⟨d, rfl, hd⟩ := (cls_graphic g).1 h4
        rw [List.all_append, Bool.and_eq_true]
        refine ⟨?_, by simp [hd]⟩
        rcases L_opt.1 h3 with h3 | rfl
        · obtain ⟨z, rfl, hz⟩ := L_set.1 h3
          simp at hz; subst hz; simp [hu]
        · rfl
      · rfl
    · intro h
      cases v with
      | nil => exact .inr rfl
      | cons c v =>
        rw [List.all_cons, Bool.and_eq_true] at h
        refine .inl ⟨[c], v, rfl, (cls_graphic _).2 ⟨c, rfl, h.1⟩, ?_⟩
        have h2 := h.2
        clear h
        induction v with
        | nil => exact L_star_nil
        | cons d v ih =>
          rw [List.all_cons, Bool.and_eq_true] at h2
          exact L_star_cons (u := [d]) (L_seq.2 ⟨[], [d], rfl, L_opt.2 (.inr rfl), (cls_graphic _).2 ⟨d, rfl, h2.1⟩⟩) (ih h2.2)
  rw [BIT_STRING_LITERALr, L_seq]
  constructor
  · rintro ⟨n, x, rfl, h1, h2⟩
    obtain ⟨b, y, rfl, h3, h4⟩ := L_seq.1 h2
    obtain ⟨v, rfl, h5⟩ := L_between.1 h4
    refine ⟨n, b, v, rfl, ?_, (L_base b).1 h3, (hv v).1 h5⟩
    rcases L_opt.1 h1 with h1 | rfl
    · exact .inr ((L_integer n).1 h1)
    · exact .inl rfl
  · rintro ⟨n, b, v, rfl, h1, h2, h3⟩
    refine ⟨n, _, rfl, ?_, L_seq.2 ⟨b, _, rfl, (L_base b).2 h2, L_between.2 ⟨v, rfl, (hv v).2 h3⟩⟩⟩
    rcases h1 with rfl | h1
    · exact L_opt.2 (.inr rfl)
    · exact L_opt.2 (.inl ((L_integer n).2 h1))

theorem L_basic (w : Str) : L BASIC_IDENTIFIERr w ↔ ∃ c s, w = c :: s ∧ letterL c = true ∧ groupTail alnumL s = true := by
  rw [BASIC_IDENTIFIERr, L_seq]
  constructor
  · rintro ⟨a, b, rfl, h1, h2⟩
    obtain ⟨c, rfl, hc⟩ := (cls_letter a).1 h1
    exact ⟨c, b, rfl, hc, (L_groupTail cls_alnum (by decide) b).1 h2⟩
  · rintro ⟨c, s, rfl, hc, hs⟩
    exact ⟨[c], s, rfl, (cls_letter _).2 ⟨c, rfl, hc⟩, (L_groupTail cls_alnum (by decide) s).2 hs⟩

theorem L_run {a : Char} (w : Str) : L (plus (set [a])) w ↔ ∃ n, w = List.replicate (n + 1) a := by
  rw [plus, L_seq]
  constructor
  · rintro ⟨x, y, rfl, h1, h2⟩
    obtain ⟨c, rfl, hc⟩ := L_set.1 h1
    simp at hc; subst hc
    have : ∃ n, y = List.replicate n c := by
      refine L_star_ind (P := fun y => ∃ n, y = List.replicate n c) ⟨0, rfl⟩ ?_ h2
      rintro u v hu - ⟨n, rfl⟩
      obtain ⟨d, rfl, hd⟩ := L_set.1 hu
      simp at hd; subst hd
      exact ⟨n + 1, rfl⟩
    obtain ⟨n, rfl⟩ := this
    exact ⟨n, rfl⟩
  · rintro ⟨n, rfl⟩
    refine ⟨[a], List.replicate n a, rfl, L_set.2 ⟨a, rfl, by simp⟩, ?_⟩
    induction n with
    | zero => exact L_star_nil
    | succ n ih => exact L_star_cons (u := [a]) (L_set.2 ⟨a, rfl, by simp⟩) ih

theorem L_comment (w : Str) : L COMMENTr w ↔ ∃ v, w = '-' :: '-' :: v ∧ '\n' ∉ v := by
  rw [COMMENTr, L_seq]
  constructor
  · rintro ⟨a, b, rfl, h1, h2⟩
    rw [L_lit] at h1; subst h1
    refine ⟨b, rfl, ?_⟩
    refine L_star_ind (P := fun b => '\n' ∉ b) (by simp) ?_ h2
    intro u v hu _ ih
    obtain ⟨c, rfl, hc⟩ := L_non.1 hu
    simp at hc ⊢
    exact ⟨fun e => hc e.symm, ih⟩
  · rintro ⟨v, rfl, hv⟩
    refine ⟨['-', '-'], v, rfl, L_lit.2 rfl, ?_⟩
    induction v with
    | nil => exact L_star_nil
    | cons c v ih =>
      simp at hv
      exact L_star_cons (u := [c]) (L_non.2 ⟨c, rfl, by simp; exact fun e => hv.1 e.symm⟩) (ih hv.2)

/-! ## Rules that can start with a character -/

/-- A rule that matches a text does not fail on its first character. -/
theorem alive {cs : List Char} {P : VT → Bool} (hk : (cs.all fun c => rules.all fun q => q.re.der (some c) == Re.empty || P q.ty) = true) {c : Char}
    (hc : c ∈ cs) {q : LRule} (hq : q ∈ rules) {u : Str} (h : L q.re (c :: u)) : P q.ty = true := by
  have := List.all_eq_true.1 (List.all_eq_true.1 hk c hc) q hq
  rw [Bool.or_eq_true] at this
  rcases this with h1 | h1
  · have h2 : Matches (q.re.der (some c)) (u.map some) := matches_der.2 h
    rw [beq_iff_eq] at h1
    rw [h1] at h2
    exact absurd h2 matches_empty
  · exact h1

/-- A rule that matches is not empty. -/
theorem not_nil {q : LRule} (hq : q ∈ rules) {u : Str} (h : L q.re u) : u ≠ [] := by
  rintro rfl
  have := List.all_eq_true.1 rules_nonnull q hq
  have h' := nullable_iff.2 h
  simp [h'] at this

theorem pref_head {u s : Str} {c : Char} (hu : u ≠ []) (h : u <+: c :: s) : ∃ v, u = c :: v ∧ v <+: s := by
  cases u with
  | nil => exact absurd rfl hu
  | cons d v =>
    obtain ⟨t, e⟩ := h
    have e1 := (List.cons.inj e).1
    subst e1
    exact ⟨v, rfl, t, (List.cons.inj e).2⟩

end Verif.Vhdl
