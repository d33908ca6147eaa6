import Verif.Vhdl.Lexer
import Verif.Spec.VhdlLex
import Verif.PpTokLemmas
/-!
# Lemmas about the languages of the rules of the VHDL lexer
-/
namespace Verif.Vhdl
open Verif.Antlr Verif.Antlr.Re Verif.Spec Verif.Spec.Lrm

/-! ## Languages of texts -/

/-- The expression matches exactly this text. -/
def L (r : Re) (w : Str) : Prop := Matches r (w.map some)

/-- The expression does not look at the end of the input. -/
def noEof : Re → Bool
  | .eof => false
  | .seq a b => noEof a && noEof b
  | .alt a b => noEof a && noEof b
  | .star a => noEof a
  | _ => true

theorem noEof_some {r : Re} {w : List Sym} (h : Matches r w) (hr : noEof r = true) : ∃ u : Str, w = u.map some := by
  induction h with
  | eps => exact ⟨[], rfl⟩
  | set _ => exact ⟨[_], rfl⟩
  | non _ => exact ⟨[_], rfl⟩
  | rng _ _ => exact ⟨[_], rfl⟩
  | eof => cases hr
  | seq _ _ iha ihb =>
    simp only [noEof, Bool.and_eq_true] at hr
    obtain ⟨u, rfl⟩ := iha hr.1
    obtain ⟨v, rfl⟩ := ihb hr.2
    exact ⟨u ++ v, by simp⟩
  | altL _ ih => simp only [noEof, Bool.and_eq_true] at hr; exact ih hr.1
  | altR _ ih => simp only [noEof, Bool.and_eq_true] at hr; exact ih hr.2
  | star0 => exact ⟨[], rfl⟩
  | star _ _ iha ihs =>
    obtain ⟨u, rfl⟩ := iha hr
    obtain ⟨v, rfl⟩ := ihs hr
    exact ⟨u ++ v, by simp⟩

theorem map_some_inj {u v : Str} (h : u.map some = v.map some) : u = v :=
  List.map_injective_iff.2 (Option.some_injective _) h

theorem L_eps {w : Str} : L .eps w ↔ w = [] := by
  rw [L, matches_eps, List.map_eq_nil_iff]

theorem L_empty {w : Str} : ¬ L .empty w := matches_empty

theorem L_set {l : List Char} {w : Str} : L (.set l) w ↔ ∃ c, w = [c] ∧ c ∈ l := by
  constructor
  · intro h
    generalize e : w.map some = x at h
    rw [L, e] at h
    cases h with
    | @set _ c hc =>
      refine ⟨c, ?_, hc⟩
      exact map_some_inj (v := [c]) e
  · rintro ⟨c, rfl, hc⟩
    exact .set hc

theorem L_non {l : List Char} {w : Str} : L (.non l) w ↔ ∃ c, w = [c] ∧ c ∉ l := by
  constructor
  · intro h
    generalize e : w.map some = x at h
    rw [L, e] at h
    cases h with
    | @non _ c hc => exact ⟨c, map_some_inj (v := [c]) e, hc⟩
  · rintro ⟨c, rfl, hc⟩
    exact .non hc

theorem L_rng {lo hi : Char} {w : Str} : L (.rng lo hi) w ↔ ∃ c, w = [c] ∧ lo.toNat ≤ c.toNat ∧ c.toNat ≤ hi.toNat := by
  constructor
  · intro h
    generalize e : w.map some = x at h
    rw [L, e] at h
    cases h with
    | @rng _ _ c h1 h2 => exact ⟨c, map_some_inj (v := [c]) e, h1, h2⟩
  · rintro ⟨c, rfl, h1, h2⟩
    exact .rng h1 h2

theorem L_seq {a b : Re} {w : Str} : L (.seq a b) w ↔ ∃ u v, w = u ++ v ∧ L a u ∧ L b v := by
  rw [L, matches_seq]
  constructor
  · rintro ⟨u, v, e, h1, h2⟩
    obtain ⟨u', v', rfl, rfl, rfl⟩ := List.map_eq_append_iff.1 e
    exact ⟨u', v', rfl, h1, h2⟩
  · rintro ⟨u, v, rfl, h1, h2⟩
    exact ⟨_, _, List.map_append, h1, h2⟩

theorem L_alt {a b : Re} {w : Str} : L (.alt a b) w ↔ L a w ∨ L b w := matches_alt

theorem L_opt {a : Re} {w : Str} : L (Re.opt a) w ↔ L a w ∨ w = [] := by
  rw [Re.opt, L_alt, L_eps]

theorem L_star {a : Re} {w : Str} : L (.star a) w ↔ ∃ ws : List Str, w = ws.flatten ∧ ∀ x ∈ ws, L a x := by
  constructor
  · intro h
    have gen : ∀ {r : Re} {x : List Sym}, Matches r x → r = .star a → ∀ w : Str, x = w.map some →
        ∃ ws : List Str, w = ws.flatten ∧ ∀ x ∈ ws, L a x := by
      intro r x hm
      induction hm with
      | star0 => intro _ w e; refine ⟨[], ?_, by simp⟩; simpa using e.symm
      | star ha hs iha ihs =>
        intro e w ew
        cases e
        obtain ⟨u, v, rfl, rfl, rfl⟩ := List.map_eq_append_iff.1 ew.symm
        obtain ⟨ws, rfl, hws⟩ := ihs rfl v rfl
        refine ⟨u :: ws, rfl, ?_⟩
        intro y hy
        rcases List.mem_cons.1 hy with rfl | hy
        · exact ha
        · exact hws y hy
      | _ => intro e; cases e
    exact gen h rfl w rfl
  · rintro ⟨ws, rfl, h⟩
    induction ws with
    | nil => exact .star0
    | cons x ws ih =>
      rw [List.flatten_cons, L, List.map_append]
      exact .star (h x (by simp)) (ih fun y hy => h y (by simp [hy]))

/-- `a*` one more. -/
theorem L_star_nil {a : Re} : L (.star a) [] := .star0
theorem L_star_cons {a : Re} {u v : Str} (hu : L a u) (hv : L (.star a) v) : L (.star a) (u ++ v) := by
  rw [L, List.map_append]; exact .star hu hv
theorem L_star_ind {a : Re} {P : Str → Prop} (h0 : P []) (h1 : ∀ u v, L a u → L (.star a) v → P v → P (u ++ v)) {w : Str} (h : L (.star a) w) :
    P w := by
  obtain ⟨ws, rfl, hws⟩ := L_star.1 h
  clear h
  induction ws with
  | nil => exact h0
  | cons x ws ih =>
    exact h1 _ _ (hws x (by simp)) (L_star.2 ⟨ws, rfl, fun y hy => hws y (by simp [hy])⟩) (ih fun y hy => hws y (by simp [hy]))

theorem L_lit {t w : Str} : L (lit t) w ↔ w = t := by
  induction t generalizing w with
  | nil => exact L_eps
  | cons c t ih =>
    cases t with
    | nil =>
      rw [lit, L_set]
      constructor
      · rintro ⟨d, rfl, hd⟩; simp at hd; simp [hd]
      · rintro rfl; exact ⟨c, rfl, by simp⟩
    | cons d t =>
      rw [lit, L_seq]
      · constructor
        · rintro ⟨u, v, rfl, h1, h2⟩
          obtain ⟨x, rfl, hx⟩ := L_set.1 h1
          rw [ih] at h2
          simp at hx
          simp [hx, h2]
        · rintro rfl
          exact ⟨[c], d :: t, rfl, L_set.2 ⟨c, rfl, by simp⟩, ih.2 rfl⟩
      · simp

theorem L_alts {l : List Re} {w : Str} : L (alts l) w ↔ ∃ r ∈ l, L r w := by
  induction l with
  | nil => simp [alts, L_empty]
  | cons r l ih =>
    cases l with
    | nil => simp [alts]
    | cons q l =>
      rw [alts, L_alt, ih]
      · simp
      · simp

/-! ## Longest matches -/

theorem take_syms {s : Str} {m : Nat} (h : m ≤ s.length) : (syms s).take m = (s.take m).map some := by
  rw [syms, List.take_append_of_le_length (by simpa using h), List.map_take]

theorem longest_le {r : Re} (hr : noEof r = true) {s : Str} {m n : Nat} (h : ∀ u, u <+: s → L r u → u.length ≤ n)
    (hm : longest r (syms s) = some m) : m ≤ n := by
  obtain ⟨h1, h2, -⟩ := longest_some_iff.1 hm
  obtain ⟨u, hu⟩ := noEof_some h2 hr
  have hl : m ≤ s.length := by
    by_contra hc
    have e : (syms s).take m = syms s := List.take_of_length_le (by simp [syms]; omega)
    rw [e, syms] at hu
    have : none ∈ u.map some := by rw [← hu]; simp
    simp at this
  rw [take_syms hl] at h2
  have := h _ (List.take_prefix m s) h2
  simpa [Nat.min_eq_left hl] using this

theorem longest_max {r : Re} (hr : noEof r = true) {s w : Str} (hw : w <+: s) (hl : L r w) (h : ∀ u, u <+: s → L r u → u.length ≤ w.length) :
    longest r (syms s) = some w.length := by
  have hle := hw.length_le
  refine longest_some_iff.2 ⟨by simp [syms]; omega, ?_, fun m h1 h2 hm => ?_⟩
  · rw [take_syms hle, ← List.prefix_iff_eq_take.1 hw]; exact hl
  · obtain ⟨u, hu⟩ := noEof_some hm hr
    have hms : m ≤ s.length := by
      by_contra hc
      have e : (syms s).take m = syms s := List.take_of_length_le (by simp [syms]; omega)
      rw [e, syms] at hu
      have : none ∈ u.map some := by rw [← hu]; simp
      simp at this
    rw [take_syms hms] at hm
    have := h _ (List.take_prefix m s) hm
    simp [Nat.min_eq_left hms] at this
    omega

theorem longest_none' {r : Re} (hr : noEof r = true) {s : Str} (h : ∀ u, u <+: s → ¬ L r u) : longest r (syms s) = none := by
  cases e : longest r (syms s) with
  | none => rfl
  | some m =>
    obtain ⟨h1, h2, -⟩ := longest_some_iff.1 e
    obtain ⟨u, hu⟩ := noEof_some h2 hr
    have hms : m ≤ s.length := by
      by_contra hc
      have e : (syms s).take m = syms s := List.take_of_length_le (by simp [syms]; omega)
      rw [e, syms] at hu
      have : none ∈ u.map some := by rw [← hu]; simp
      simp at this
    rw [take_syms hms] at h2
    exact absurd h2 (h _ (List.take_prefix m s))

/-! ## The choice between the rules -/

theorem pick_filter {α : Type} {re : α → Re} {s : List Sym} (keep : α → Bool) :
    ∀ {l : List α}, (∀ r ∈ l, keep r = false → longest (re r) s = none) → pick re l s = pick re (l.filter keep) s
  | [], _ => rfl
  | r :: l, h => by
    have ih := pick_filter keep (l := l) fun q hq => h q (by simp [hq])
    rw [List.filter_cons]
    cases hk : keep r with
    | false => simp only [pick, h r (by simp) hk, ih, Bool.false_eq_true, if_false]
    | true => simp only [pick, ih, if_true]

theorem pick_le {α : Type} {re : α → Re} {s : List Sym} {n : Nat} {l : List α} (h : ∀ q ∈ l, ∀ m, longest (re q) s = some m → m ≤ n) {x : α × Nat}
    (hx : pick re l s = some x) : x.2 ≤ n := by
  obtain ⟨r, k⟩ := x
  obtain ⟨h1, h2⟩ := pick_some hx
  exact h r h1 k h2

/-- The rule with the longest match, the first one of those. -/
theorem pick_max {α : Type} {re : α → Re} {s : List Sym} {n : Nat} {r : α} (hr : longest (re r) s = some n) {l2 : List α}
    (h2 : ∀ q ∈ l2, ∀ m, longest (re q) s = some m → m ≤ n) :
    ∀ {l1 : List α}, (∀ q ∈ l1, ∀ m, longest (re q) s = some m → m < n) → pick re (l1 ++ r :: l2) s = some (r, n)
  | [], _ => by
    rw [List.nil_append, pick, hr]
    cases e : pick re l2 s with
    | none => rfl
    | some x =>
      have := pick_le h2 e
      simp only
      rw [if_neg (by omega)]
  | q :: l1, h1 => by
    rw [List.cons_append, pick, pick_max hr h2 (l1 := l1) fun p hp => h1 p (by simp [hp])]
    cases e : longest (re q) s with
    | none => rfl
    | some m =>
      have := h1 q (by simp) m e
      simp only
      rw [if_pos this]

end Verif.Vhdl
