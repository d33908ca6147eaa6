import Verif.SvLexLang
import Verif.KernelRfl
/-!
# The choice between the rules of the SystemVerilog lexer
-/
namespace Verif.Sv
open Verif.Antlr Verif.Antlr.Re Verif.Spec Verif.Spec.SvLex
open Verif.Vhdl (L noEof L_eps L_set L_non L_rng L_seq L_alt L_opt L_star L_lit L_alts L_empty Cls take_syms longest_le longest_max longest_none' pick_filter pick_max
  split_at longer pref_head longest_bound)

/-! ## Tables -/

theorem rules_nonnull : rules.all (fun q => !q.re.nullable) = true := by decide +kernel
theorem tableRules_nonnull : tableRules.all (fun q => !q.re.nullable) = true := by decide +kernel
theorem rules_noEof : rules.all (fun q => noEof q.re || q.ty == .ONE_LINE_COMMENT) = true := by decide +kernel
theorem rules_re : rules.all (fun q => q.ty != .ONE_LINE_COMMENT || q.re == ONE_LINE_COMMENTr) = true := by decide +kernel
theorem tableRules_noEof : tableRules.all (fun q => noEof q.re || q.ty == .ONE_LINE_COMMENT) = true := by decide +kernel
theorem tableRules_re : tableRules.all (fun q => q.ty != .ONE_LINE_COMMENT || q.re == ONE_LINE_COMMENTr) = true := by decide +kernel

theorem mem_all (v : Version) : v ∈ Version.all := by cases v <;> decide

/-- The words of a level of the lexer. -/
def levelWords : Nat → List Str
  | 0 => special ++ words1995
  | 2 => words2001 ++ disagree .v2001noconfig
  | 4 => words2005
  | 5 => wordsSv2005 ++ disagree .v2001
  | 6 => wordsSv2009
  | 7 => wordsSv2012
  | _ => []
/-- The keywords of the lexer and the reserved words. -/
theorem kw_level : (kwTexts.all fun x => (levelWords x.2).contains x.1) = true := by decide +kernel
theorem level_kw : ([0, 2, 4, 5, 6, 7].all fun n => (levelWords n).all fun w => kwTexts.contains (w, n)) = true := by decide +kernel
theorem config_split : ∀ w ∈ wordsConfig, w ∈ disagree .v2001noconfig ∨ w ∈ disagree .v2001 := by decide
theorem split_config : ∀ w, w ∈ disagree .v2001noconfig ∨ w ∈ disagree .v2001 → w ∈ wordsConfig := by
  intro w h; simp only [disagree, wordsConfig, List.mem_cons, List.not_mem_nil, or_false] at h ⊢; tauto

theorem level_cases {n : Nat} {w : Str} (h : w ∈ levelWords n) : (n = 0 ∧ (w ∈ special ∨ w ∈ words1995)) ∨ (n = 2 ∧ (w ∈ words2001 ∨ w ∈ disagree .v2001noconfig)) ∨
    (n = 4 ∧ w ∈ words2005) ∨ (n = 5 ∧ (w ∈ wordsSv2005 ∨ w ∈ disagree .v2001)) ∨ (n = 6 ∧ w ∈ wordsSv2009) ∨ (n = 7 ∧ w ∈ wordsSv2012) := by
  unfold levelWords at h
  split at h <;> simp_all [List.mem_append]

theorem kw_active {v : Version} {x : Str × Nat} (hx : x ∈ kwTexts) (h : x.2 ≤ v.code) : x.1 ∈ reserved v ∨ x.1 ∈ special ∨ x.1 ∈ disagree v := by
  have hl := List.contains_iff_mem.1 (List.all_eq_true.1 kw_level x hx)
  have hc := split_config x.1
  obtain ⟨w, n⟩ := x
  simp only at hl hc h ⊢
  rcases level_cases hl with ⟨rfl, h1⟩ | ⟨rfl, h1⟩ | ⟨rfl, h1⟩ | ⟨rfl, h1⟩ | ⟨rfl, h1⟩ | ⟨rfl, h1⟩ <;> cases v <;>
    first
    | (exfalso; revert h; decide)
    | (simp only [reserved, List.mem_append]; tauto)
theorem kw_of_level {n : Nat} {w : Str} (hn : n ∈ [0, 2, 4, 5, 6, 7]) (h : w ∈ levelWords n) : (w, n) ∈ kwTexts :=
  List.contains_iff_mem.1 (List.all_eq_true.1 (List.all_eq_true.1 level_kw n hn) w h)
theorem level0 {w : Str} (h : w ∈ words1995 ∨ w ∈ special) : w ∈ levelWords 0 := List.mem_append.2 h.symm
theorem level2 {w : Str} (h : w ∈ words2001 ∨ w ∈ disagree .v2001noconfig) : w ∈ levelWords 2 := List.mem_append.2 h
theorem level5 {w : Str} (h : w ∈ wordsSv2005 ∨ w ∈ disagree .v2001) : w ∈ levelWords 5 := List.mem_append.2 h
theorem level4 {w : Str} (h : w ∈ words2005) : w ∈ levelWords 4 := h
theorem level6 {w : Str} (h : w ∈ wordsSv2009) : w ∈ levelWords 6 := h
theorem level7 {w : Str} (h : w ∈ wordsSv2012) : w ∈ levelWords 7 := h

theorem reserved_kw {v : Version} {w : Str} (hw : w ∈ reserved v ∨ w ∈ special) (hd : w ∉ disagree v) : ∃ n, (w, n) ∈ kwTexts ∧ n ≤ v.code := by
  have h0 : w ∈ words1995 ∨ w ∈ special → (w, 0) ∈ kwTexts := fun h => kw_of_level (by simp) (level0 h)
  have h2 : w ∈ words2001 → (w, 2) ∈ kwTexts := fun h => kw_of_level (by simp) (level2 (.inl h))
  have h4 : w ∈ words2005 → (w, 4) ∈ kwTexts := fun h => kw_of_level (by simp) (level4 h)
  have h5 : w ∈ wordsSv2005 → (w, 5) ∈ kwTexts := fun h => kw_of_level (by simp) (level5 (.inl h))
  have h6 : w ∈ wordsSv2009 → (w, 6) ∈ kwTexts := fun h => kw_of_level (by simp) (level6 h)
  have h7 : w ∈ wordsSv2012 → (w, 7) ∈ kwTexts := fun h => kw_of_level (by simp) (level7 h)
  have hn : w ∈ disagree .v2001noconfig → (w, 2) ∈ kwTexts := fun h => kw_of_level (by simp) (level2 (.inr h))
  have hv : w ∈ disagree .v2001 → (w, 5) ∈ kwTexts := fun h => kw_of_level (by simp) (level5 (.inr h))
  rcases hw with hw | hw
  · have g0 : ∀ {v : Version}, w ∈ words1995 → ∃ n, (w, n) ∈ kwTexts ∧ n ≤ v.code := fun h => ⟨0, h0 (.inl h), Nat.zero_le _⟩
    have g2 : ∀ {v : Version}, 2 ≤ v.code → w ∈ words2001 → ∃ n, (w, n) ∈ kwTexts ∧ n ≤ v.code := fun hv h => ⟨2, h2 h, hv⟩
    have g4 : ∀ {v : Version}, 4 ≤ v.code → w ∈ words2005 → ∃ n, (w, n) ∈ kwTexts ∧ n ≤ v.code := fun hv h => ⟨4, h4 h, hv⟩
    have g5 : ∀ {v : Version}, 5 ≤ v.code → w ∈ wordsSv2005 → ∃ n, (w, n) ∈ kwTexts ∧ n ≤ v.code := fun hv h => ⟨5, h5 h, hv⟩
    have g6 : ∀ {v : Version}, 6 ≤ v.code → w ∈ wordsSv2009 → ∃ n, (w, n) ∈ kwTexts ∧ n ≤ v.code := fun hv h => ⟨6, h6 h, hv⟩
    have g7 : ∀ {v : Version}, 7 ≤ v.code → w ∈ wordsSv2012 → ∃ n, (w, n) ∈ kwTexts ∧ n ≤ v.code := fun hv h => ⟨7, h7 h, hv⟩
    have gc : ∀ {v : Version}, 2 ≤ v.code ∧ (5 ≤ v.code ∨ disagree v = disagree .v2001) → w ∉ disagree v → w ∈ wordsConfig → ∃ n, (w, n) ∈ kwTexts ∧ n ≤ v.code := by
      intro v hvc hd h
      rcases config_split w h with h | h
      · exact ⟨2, hn h, hvc.1⟩
      · rcases hvc.2 with h' | h'
        · exact ⟨5, hv h, h'⟩
        · exact absurd (h' ▸ h) hd
    cases v <;> simp only [reserved, List.mem_append] at hw
    · exact g0 hw
    · rcases hw with ((hw | hw) | hw)
      exacts [g0 hw, g2 (by decide) hw, gc ⟨by decide, .inr rfl⟩ hd hw]
    · rcases hw with (hw | hw)
      exacts [g0 hw, g2 (by decide) hw]
    · rcases hw with (((hw | hw) | hw) | hw)
      exacts [g0 hw, g2 (by decide) hw, gc ⟨by decide, .inr rfl⟩ hd hw, g4 (by decide) hw]
    · rcases hw with ((((hw | hw) | hw) | hw) | hw)
      exacts [g0 hw, g2 (by decide) hw, gc ⟨by decide, .inl (by decide)⟩ hd hw, g4 (by decide) hw, g5 (by decide) hw]
    · rcases hw with (((((hw | hw) | hw) | hw) | hw) | hw)
      exacts [g0 hw, g2 (by decide) hw, gc ⟨by decide, .inl (by decide)⟩ hd hw, g4 (by decide) hw, g5 (by decide) hw, g6 (by decide) hw]
    · rcases hw with ((((((hw | hw) | hw) | hw) | hw) | hw) | hw)
      exacts [g0 hw, g2 (by decide) hw, gc ⟨by decide, .inl (by decide)⟩ hd hw, g4 (by decide) hw, g5 (by decide) hw, g6 (by decide) hw, g7 (by decide) hw]
    · rcases hw with ((((((hw | hw) | hw) | hw) | hw) | hw) | hw)
      exacts [g0 hw, g2 (by decide) hw, gc ⟨by decide, .inl (by decide)⟩ hd hw, g4 (by decide) hw, g5 (by decide) hw, g6 (by decide) hw, g7 (by decide) hw]
  · exact ⟨0, h0 (.inr hw), Nat.zero_le _⟩

theorem sym_nodup : symTexts.Nodup := by decide +kernel
theorem sym_all : ∀ s ∈ symTexts, s = ['\\'] ∨ s ∈ allSymbols := by decide +kernel
theorem all_sym : ∀ s ∈ allSymbols, s ∈ symTexts := by decide +kernel
theorem symbols_all {v : Version} {s : Str} (h : s ∈ symbols v) : s ∈ allSymbols := by
  cases v <;> simp only [symbols, allSymbols, List.mem_append] at h ⊢ <;> tauto
theorem reserved_2017 {v : Version} {s : Str} (h : s ∈ reserved v) : s ∈ reserved .sv2017 := by
  cases v <;> simp only [reserved, List.mem_append] at h ⊢ <;> tauto

/-! ## Steps of the lexer -/

theorem mem_rulesOf {v : Nat} {m : Bool} {q : SRule} (h : q ∈ rulesOf v m) : (m = true ∧ q ∈ tableRules) ∨ (m = false ∧ q ∈ rules ∧ q.since ≤ v) := by
  cases m with
  | true => exact .inl ⟨rfl, h⟩
  | false =>
    obtain ⟨h1, h2⟩ := List.mem_filter.1 (show q ∈ rules.filter (fun r => decide (r.since ≤ v)) from h)
    exact .inr ⟨rfl, h1, by simpa using h2⟩

theorem nonnull {v : Nat} {m : Bool} {q : SRule} (h : q ∈ rulesOf v m) : q.re.nullable = false := by
  rcases mem_rulesOf h with ⟨-, h⟩ | ⟨-, h, -⟩
  · simpa using List.all_eq_true.1 tableRules_nonnull q h
  · simpa using List.all_eq_true.1 rules_nonnull q h

theorem eof_rule {v : Nat} {m : Bool} {q : SRule} (h : q ∈ rulesOf v m) : noEof q.re = true ∨ (q.ty = .ONE_LINE_COMMENT ∧ q.re = ONE_LINE_COMMENTr) := by
  have : (noEof q.re || q.ty == .ONE_LINE_COMMENT) = true ∧ (q.ty != .ONE_LINE_COMMENT || q.re == ONE_LINE_COMMENTr) = true := by
    rcases mem_rulesOf h with ⟨-, h⟩ | ⟨-, h, -⟩
    · exact ⟨List.all_eq_true.1 tableRules_noEof q h, List.all_eq_true.1 tableRules_re q h⟩
    · exact ⟨List.all_eq_true.1 rules_noEof q h, List.all_eq_true.1 rules_re q h⟩
  simp only [Bool.or_eq_true, beq_iff_eq, bne_iff_ne, ne_eq] at this
  tauto

theorem pick_pos {v : Nat} {m : Bool} {s : Str} {r : SRule} {n : Nat} (h : pick SRule.re (rulesOf v m) (syms s) = some (r, n)) : 0 < n := by
  obtain ⟨hr, hl⟩ := pick_some h
  have hn := nonnull hr
  rcases Nat.eq_zero_or_pos n with rfl | h0
  · have := (longest_some_iff.1 hl).2.1
    rw [List.take_zero, ← nullable_iff] at this
    rw [this] at hn; cases hn
  · exact h0

theorem lexFrom_congr {v : Nat} {f g : Nat} {m : Bool} {s : Str} (hf : s.length ≤ f) (hg : s.length ≤ g) : lexFrom v f m s = lexFrom v g m s := by
  induction f generalizing g s m with
  | zero =>
    have : s = [] := List.length_eq_zero_iff.1 (by omega)
    subst this
    cases g <;> simp [lexFrom]
  | succ f ih =>
    cases s with
    | nil => cases g <;> simp [lexFrom]
    | cons c s =>
      cases g with
      | zero => simp at hg
      | succ g =>
        simp only [lexFrom]
        cases hp : pick SRule.re (rulesOf v m) (syms (c :: s)) with
        | none => rfl
        | some x =>
          obtain ⟨r, n⟩ := x
          have hpos := pick_pos hp
          simp only
          rw [ih (g := g)]
          · simp at hf ⊢; omega
          · simp at hg ⊢; omega

/-- The lexer in a mode. -/
def lexM (v : Nat) (m : Bool) (s : Str) : Option (List LTok) := lexFrom v s.length m s
theorem lex_lexM (v : Nat) (s : Str) : lex v s = lexM v false s := rfl
theorem lexM_nil (v : Nat) (m : Bool) : lexM v m [] = some [] := rfl

theorem lexM_step {v : Nat} {m : Bool} {s : Str} {r : SRule} {n : Nat} (hs : s ≠ []) (hp : pick SRule.re (rulesOf v m) (syms s) = some (r, n)) :
    lexM v m s = match lexM v (nextMode m r.ty) (s.drop n) with
      | none => none
      | some ts => some (if r.hide then ts else ⟨r.ty, utf8 (s.take n)⟩ :: ts) := by
  have hpos := pick_pos hp
  cases s with
  | nil => exact absurd rfl hs
  | cons c s =>
    rw [lexM, List.length_cons, lexFrom]
    · simp only [hp]
      rw [lexFrom_congr (g := ((c :: s).drop n).length) (by simp; omega) (Nat.le_refl _), ← lexM]
      cases lexM v (nextMode m r.ty) (List.drop n (c :: s)) <;> rfl
    · simp

theorem lexM_none {v : Nat} {m : Bool} {s : Str} (hs : s ≠ []) (hp : pick SRule.re (rulesOf v m) (syms s) = none) : lexM v m s = none := by
  cases s with
  | nil => exact absurd rfl hs
  | cons c s =>
    rw [lexM, List.length_cons, lexFrom]
    · simp only [hp]
    · simp

theorem lexM_visible {v : Nat} {m : Bool} {w s : Str} (hw : w ≠ []) {r : SRule} (hp : pick SRule.re (rulesOf v m) (syms (w ++ s)) = some (r, w.length))
    (hr : r.hide = false) : lexM v m (w ++ s) = (lexM v (nextMode m r.ty) s).map fun ts => ⟨r.ty, utf8 w⟩ :: ts := by
  rw [lexM_step (by simp [hw]) hp, List.drop_left, List.take_left, hr]
  cases lexM v (nextMode m r.ty) s <;> rfl

theorem lexM_hidden {v : Nat} {m : Bool} {w s : Str} (hw : w ≠ []) {r : SRule} (hp : pick SRule.re (rulesOf v m) (syms (w ++ s)) = some (r, w.length))
    (hr : r.hide = true) (ht : nextMode m r.ty = m) : lexM v m (w ++ s) = lexM v m s := by
  rw [lexM_step (by simp [hw]) hp, List.drop_left, List.take_left, hr, ht]
  cases lexM v m s <;> rfl

/-! ## Comments -/

theorem no_line {s : Str} (h : ¬ ['/', '/'] <+: s) : longest ONE_LINE_COMMENTr (syms s) = none := by
  rw [longest_none_iff]
  intro n hm
  obtain ⟨u, v, e, h1, -⟩ := matches_seq.1 hm
  have h1 : L (lit ['/', '/']) (List.filterMap id u) ∧ u = (List.filterMap id u).map some := by
    obtain ⟨w, rfl⟩ := Vhdl.noEof_some h1 (by decide)
    have : List.filterMap id (w.map some) = w := by simp
    rw [this]; exact ⟨h1, rfl⟩
  rw [L_lit] at h1
  rw [h1.1] at h1
  have hu : u = [some '/', some '/'] := h1.2
  subst hu
  apply h
  have hp : [some '/', some '/'] <+: syms s := (List.prefix_append _ v).trans (e ▸ List.take_prefix n _)
  match s, hp with
  | [], hp => simp [syms] at hp
  | [c], hp => simp [syms] at hp
  | c :: d :: s, hp =>
    simp [syms] at hp
    simpa using hp

theorem block_head {u : Str} (h : L BLOCK_COMMENTr u) : ['/', '*'] <+: u := by
  obtain ⟨a, b, rfl, h1, -⟩ := L_seq.1 h
  rw [L_lit] at h1; subst h1
  exact List.prefix_append _ _

/-! ## Choosing a rule -/

/-- The rule `r` is chosen and takes `w`. -/
theorem choose {v : Nat} {m : Bool} {l1 l2 : List SRule} {r : SRule} {w s : Str} (hr : rulesOf v m = l1 ++ r :: l2) (hL : L r.re w) (hn : noEof r.re = true)
    (hc : ¬ ['/', '/'] <+: w ++ s)
    (hmax : ∀ q ∈ rulesOf v m, noEof q.re = true → ∀ u, u <+: w ++ s → L q.re u → u.length ≤ w.length)
    (hfirst : ∀ q ∈ l1, ¬ L q.re w) : pick SRule.re (rulesOf v m) (syms (w ++ s)) = some (r, w.length) := by
  have hr' : r ∈ rulesOf v m := by rw [hr]; simp
  have hle : ∀ q ∈ rulesOf v m, ∀ k, longest q.re (syms (w ++ s)) = some k → k ≤ w.length := by
    intro q hq k hk
    rcases eof_rule hq with h | ⟨-, h⟩
    · exact longest_le h (hmax q hq h) hk
    · rw [h, no_line hc] at hk; cases hk
  rw [hr]
  refine pick_max (re := SRule.re) (longest_max hn (List.prefix_append _ _) hL (hmax r hr' hn)) ?_ ?_
  · intro q hq k hk
    exact hle q (by rw [hr]; simp [hq]) k hk
  · intro q hq k hk
    rcases Nat.lt_or_eq_of_le (hle q (by rw [hr]; simp [hq]) k hk) with h | h
    · exact h
    · subst h
      have := (longest_some_iff.1 hk).2.1
      rw [take_syms (by simp), List.take_left] at this
      exact absurd this (hfirst q hq)

/-- The same for the default mode. -/
theorem choose_plain {v : Nat} {l1 l2 : List SRule} {r : SRule} {w s : Str} (hr : rules = l1 ++ r :: l2) (hs : r.since ≤ v) (hL : L r.re w) (hn : noEof r.re = true)
    (hc : ¬ ['/', '/'] <+: w ++ s)
    (hmax : ∀ q ∈ rules, q.since ≤ v → noEof q.re = true → ∀ u, u <+: w ++ s → L q.re u → u.length ≤ w.length)
    (hfirst : ∀ q ∈ l1, q.since ≤ v → ¬ L q.re w) : pick SRule.re (rulesOf v false) (syms (w ++ s)) = some (r, w.length) := by
  have e : rulesOf v false = (l1.filter fun r => decide (r.since ≤ v)) ++ r :: l2.filter fun r => decide (r.since ≤ v) := by
    rw [rulesOf, hr]
    simp [List.filter_append, hs]
  refine choose e hL hn hc ?_ ?_
  · intro q hq
    rcases mem_rulesOf hq with ⟨h, -⟩ | ⟨-, h1, h2⟩
    · cases h
    · exact hmax q h1 h2
  · intro q hq
    obtain ⟨h1, h2⟩ := List.mem_filter.1 hq
    exact hfirst q h1 (by simpa using h2)

end Verif.Sv
