import Verif.Position
import Verif.Spec.Place
import Verif.SvLexMain
/-!
# Lemmas about positions
-/
namespace Verif.Position
open Verif.Antlr Verif.Antlr.Re Verif.Spec Verif.Spec.Place

theorem advance_append (p : Nat × Nat) (a b : Str) : advance p (a ++ b) = advance (advance p a) b := by
  induction a generalizing p with
  | nil => rfl
  | cons c a ih =>
    obtain ⟨l, k⟩ := p
    simp only [List.cons_append, advance]
    split <;> exact ih _

theorem advance_line (l k : Nat) (w : Str) (h : '\n' ∉ w) : advance (l, k) w = (l, k + w.length) := by
  induction w generalizing k with
  | nil => rfl
  | cons c w ih =>
    rw [List.mem_cons, not_or] at h
    rw [advance, if_neg (fun e => h.1 e.symm), ih _ h.2, List.length_cons]
    congr 1; omega

/-- The line and the column behind a text. -/
theorem advance_spec (a : Str) : ∃ front line, a = front ++ line ∧ (front = [] ∨ ∃ q, front = q ++ ['\n']) ∧ '\n' ∉ line ∧
    advance (1, 0) a = (front.count '\n' + 1, line.length) := by
  induction a using List.reverseRecOn with
  | nil => exact ⟨[], [], rfl, .inl rfl, by simp, rfl⟩
  | append_singleton a c ih =>
    obtain ⟨f, l, rfl, hf, hl, e⟩ := ih
    by_cases hc : c = '\n'
    · subst hc
      refine ⟨f ++ l ++ ['\n'], [], by simp, .inr ⟨_, rfl⟩, by simp, ?_⟩
      rw [advance_append, e, advance, if_pos rfl, advance, List.count_append, List.count_append, List.count_eq_zero.2 hl]
      simp
    · refine ⟨f, l ++ [c], by simp, hf, by simp [hl, Ne.symm hc], ?_⟩
      rw [advance_append, e, advance, if_neg hc, advance]
      simp

theorem at_advance {s a : Str} {k : Nat} (hk : k < s.length) (e : s.take k = a) : At s (advance (1, 0) a).1 ((advance (1, 0) a).2 + 1) k := by
  obtain ⟨f, l, rfl, hf, hl, h⟩ := advance_spec a
  exact ⟨hk, f, l, e, hf, hl, by rw [h], by rw [h]⟩

theorem advance_split {f l : Str} (hf : f = [] ∨ ∃ q, f = q ++ ['\n']) (hl : '\n' ∉ l) : advance (1, 0) (f ++ l) = (f.count '\n' + 1, l.length) := by
  have key : ∀ (q : Str) (x : Nat × Nat), advance x (q ++ ['\n']) = (x.1 + q.count '\n' + 1, 0) := by
    intro q
    induction q with
    | nil => intro x; obtain ⟨a, b⟩ := x; simp [advance]
    | cons c q ih =>
      intro x
      obtain ⟨a, b⟩ := x
      rw [List.cons_append, advance]
      split
      · next h => subst h; rw [ih, List.count_cons_self]; simp only [Prod.mk.injEq, and_true]; omega
      · next h => rw [ih, List.count_cons_of_ne (by simpa using h)]
  rcases hf with rfl | ⟨q, rfl⟩
  · simp [advance_line _ _ _ hl]
  · rw [advance_append, key, advance_line _ _ _ hl]
    simp; omega

theorem advance_grows (d : Str) (l k : Nat) : l < (advance (l, k) d).1 ∨ advance (l, k) d = (l, k + d.length) := by
  induction d generalizing l k with
  | nil => exact .inr rfl
  | cons c d ih =>
    rw [advance]
    split
    · rcases ih (l + 1) 0 with h | h
      · exact .inl (by omega)
      · rw [h]; exact .inl (by simp)
    · rcases ih l (k + 1) with h | h
      · exact .inl h
      · rw [h]; exact .inr (by simp; omega)

/-- One place, one character. -/
theorem at_fun {s : Str} {l c k k' : Nat} (h : At s l c k) (h' : At s l c k') : k = k' := by
  have key : ∀ {k k' : Nat}, At s l c k → At s l c k' → k ≤ k' → k = k' := by
    rintro k k' ⟨hk, f, x, e, hf, hx, rfl, rfl⟩ ⟨hk', f', x', e', hf', hx', e1, e2⟩ hle
    have h1 := advance_split hf hx
    have h2 := advance_split hf' hx'
    rw [← e] at h1
    have e3 : s.take k' = s.take k ++ (s.take k').drop k := by
      conv_lhs => rw [← List.take_append_drop k (s.take k')]
      rw [List.take_take, Nat.min_eq_left hle]
    rw [← e', e3, advance_append, h1] at h2
    have hd : ((s.take k').drop k).length = k' - k := by rw [List.length_drop, List.length_take]; omega
    rcases advance_grows ((s.take k').drop k) (f.count '\n' + 1) x.length with h | h
    · rw [h2] at h; simp only [] at h; omega
    · rw [h2, Prod.mk.injEq, hd] at h; omega
  rcases Nat.le_total k k' with hle | hle
  · exact key h h' hle
  · exact (key h' h hle).symm

/-- A token and its place in the text. -/
def Placed {τ : Type} (T : τ → Str → Prop) (s : Str) (x : τ × TokPos) : Prop := ∃ a b c, s = a ++ (b ++ c) ∧ b ≠ [] ∧ T x.1 b ∧
  x.2 = ⟨(advance (1, 0) a).1, (advance (1, 0) a).2, a.length, a.length + b.length - 1⟩

theorem scan_placed {σ τ : Type} {next : σ → Str → Option (Option τ × Nat × σ)} {T : τ → Str → Prop}
    (hn : ∀ st s t n st', next st s = some (some t, n, st') → 0 < n ∧ n ≤ s.length ∧ T t (s.take n)) {fuel : Nat} {st : σ} {pre s : Str}
    {ts : List (τ × TokPos)} (h : scan next fuel st (advance (1, 0) pre) pre.length s = some ts) :
    (∀ x ∈ ts, Placed T (pre ++ s) x ∧ pre.length ≤ x.2.start) ∧ ts.Pairwise fun x y => x.2.stop < y.2.start := by
  induction fuel generalizing st pre s ts with
  | zero =>
    cases s with
    | nil => cases h; simp
    | cons => cases h
  | succ fuel ih =>
    cases s with
    | nil => cases h; simp
    | cons c s =>
      simp only [scan] at h
      cases hx : next st (c :: s) with
      | none => rw [hx] at h; cases h
      | some x =>
        obtain ⟨t, n, st'⟩ := x
        rw [hx] at h
        by_cases hle : n ≤ (c :: s).length
        · have e := List.take_append_drop n (c :: s)
          have hl : ((c :: s).take n).length = n := List.length_take_of_le hle
          simp only [] at h
          generalize hw : (c :: s).take n = w at *
          generalize hr : (c :: s).drop n = r at *
          have hi : pre.length + n = (pre ++ w).length := by rw [List.length_append, hl]
          rw [← advance_append, hi] at h
          cases hs : scan next fuel st' (advance (1, 0) (pre ++ w)) (pre ++ w).length r with
          | none => rw [hs] at h; cases h
          | some ts' =>
            rw [hs] at h
            obtain ⟨i1, i2⟩ := ih hs
            rw [List.append_assoc, e] at i1
            have i1' : ∀ x ∈ ts', Placed T (pre ++ c :: s) x ∧ pre.length ≤ x.2.start := fun x hx =>
              ⟨(i1 x hx).1, by have := (i1 x hx).2; rw [List.length_append] at this; omega⟩
            cases t with
            | none => cases h; exact ⟨i1', i2⟩
            | some t =>
              cases h
              obtain ⟨h0, -, hT⟩ := hn _ _ _ _ _ hx
              rw [hw] at hT
              refine ⟨?_, List.pairwise_cons.2 ⟨fun y hy => ?_, i2⟩⟩
              · intro x hx
                rcases List.mem_cons.1 hx with rfl | hx
                · refine ⟨⟨pre, w, r, by rw [e], ?_, hT, ?_⟩, Nat.le_refl _⟩
                  · rintro rfl; simp at hl; omega
                  · simp only [hl, List.length_append]
                · exact i1' x hx
              · have := (i1 y hy).2
                rw [List.length_append, hl] at this
                show (pre ++ w).length - 1 < _
                rw [List.length_append]
                omega
        · cases t with
          | some t => exact absurd (hn _ _ _ _ _ hx).2.1 hle
          | none =>
            have hd : (c :: s).drop n = [] := List.drop_eq_nil_of_le (by omega)
            simp only [hd] at h
            cases fuel <;> (simp only [scan] at h; cases h; simp)

/-- The places do not matter for the tokens. -/
theorem scan_fst {σ τ : Type} {next : σ → Str → Option (Option τ × Nat × σ)} {fuel : Nat} {st : σ} {p : Nat × Nat} {i : Nat} {s : Str} {p' : Nat × Nat} {i' : Nat} :
    (scan next fuel st p i s).map (List.map Prod.fst) = (scan next fuel st p' i' s).map (List.map Prod.fst) := by
  induction fuel generalizing st p i s p' i' with
  | zero => cases s <;> rfl
  | succ fuel ih =>
    cases s with
    | nil => rfl
    | cons c s =>
      simp only [scan]
      cases next st (c :: s) with
      | none => rfl
      | some x =>
        obtain ⟨t, n, st'⟩ := x
        have := ih (st := st') (p := advance p (List.take n (c :: s))) (i := i + n) (s := List.drop n (c :: s)) (p' := advance p' (List.take n (c :: s))) (i' := i' + n)
        revert this
        simp only []
        cases scan next fuel st' (advance p (List.take n (c :: s))) (i + n) (List.drop n (c :: s)) <;>
          cases scan next fuel st' (advance p' (List.take n (c :: s))) (i' + n) (List.drop n (c :: s)) <;> intro this <;> simp at this <;> cases t <;> simp [this]

theorem sv_fst (v : Nat) (s : Str) : (svTokens v s).map (List.map Prod.fst) = Sv.lex v s := by
  rw [svTokens, Sv.lex]
  generalize (1, 0) = p
  generalize 0 = i
  generalize false = m
  generalize s.length = fuel
  induction fuel generalizing m p i s with
  | zero => cases s <;> rfl
  | succ fuel ih =>
    cases s with
    | nil => rfl
    | cons c s =>
      rw [scan, Sv.lexFrom, svNext]
      cases pick Sv.SRule.re (Sv.rulesOf v m) (syms (c :: s)) with
      | none => rfl
      | some x =>
        obtain ⟨r, n⟩ := x
        simp only []
        rw [← ih ((c :: s).drop n) (advance p (List.take n (c :: s))) (i + n) (Sv.nextMode m r.ty)]
        cases scan (svNext v) fuel (Sv.nextMode m r.ty) (advance p (List.take n (c :: s))) (i + n) (List.drop n (c :: s)) with
        | none => rfl
        | some ts => cases r.hide <;> rfl
      all_goals simp

theorem vhdl_fst (s : Str) : (vhdlTokens s).map (List.map Prod.fst) = Vhdl.lex s := by
  rw [vhdlTokens, Vhdl.lex]
  generalize (1, 0) = p
  generalize 0 = i
  generalize s.length = fuel
  induction fuel generalizing p i s with
  | zero => cases s <;> rfl
  | succ fuel ih =>
    cases s with
    | nil => rfl
    | cons c s =>
      rw [scan, Vhdl.lexFrom, vhdlNext]
      cases pick Vhdl.LRule.re (Vhdl.rulesAt (c :: s)) (syms (c :: s)) with
      | none => rfl
      | some x =>
        obtain ⟨r, n⟩ := x
        simp only []
        rw [← ih ((c :: s).drop n) (advance p (List.take n (c :: s))) (i + n)]
        cases scan vhdlNext fuel () (advance p (List.take n (c :: s))) (i + n) (List.drop n (c :: s)) with
        | none => rfl
        | some ts => cases r.hide <;> rfl
      all_goals simp

/-- No line feed is matched. -/
def noNl : Re → Bool
  | .set l => !l.contains '\n'
  | .non l => l.contains '\n'
  | .rng lo hi => !(decide (lo.toNat ≤ 10) && decide (10 ≤ hi.toNat))
  | .seq a b => noNl a && noNl b
  | .alt a b => noNl a && noNl b
  | .star a => noNl a
  | _ => true
theorem noNl_matches {r : Re} {w : List Sym} (h : Matches r w) (hr : noNl r = true) : some '\n' ∉ w := by
  induction h with
  | eps => simp
  | set h => simp [noNl] at hr ⊢; rintro rfl; exact hr h
  | non h => simp [noNl] at hr ⊢; rintro rfl; exact h hr
  | rng h1 h2 => simp [noNl] at hr ⊢; rintro rfl; have h1 : _ ≤ 10 := h1; have h2 : 10 ≤ _ := h2; omega
  | eof => simp
  | seq _ _ iha ihb => simp only [noNl, Bool.and_eq_true] at hr; simp [iha hr.1, ihb hr.2]
  | altL _ ih => simp only [noNl, Bool.and_eq_true] at hr; exact ih hr.1
  | altR _ ih => simp only [noNl, Bool.and_eq_true] at hr; exact ih hr.2
  | star0 => simp
  | star _ _ iha ihb => simp [iha hr, ihb hr]

theorem sv_next {v : Nat} {m : Bool} {s : Str} {t : Sv.LTok} {n : Nat} {m' : Bool} (h : svNext v m s = some (some t, n, m')) :
    0 < n ∧ n ≤ s.length ∧ t.text = Lrm.bytes (s.take n) := by
  rw [svNext] at h
  cases hp : pick Sv.SRule.re (Sv.rulesOf v m) (syms s) with
  | none => rw [hp] at h; cases h
  | some x =>
    obtain ⟨r, k⟩ := x
    rw [hp] at h
    simp only [Option.some.injEq, Prod.mk.injEq] at h
    obtain ⟨h1, rfl, -⟩ := h
    obtain ⟨hmem, hl⟩ := pick_some hp
    have hh : r.hide = false := by cases e : r.hide <;> simp [e] at h1 ⊢
    rw [hh] at h1
    simp only [Bool.false_eq_true, if_false, Option.some.injEq] at h1
    subst h1
    refine ⟨Sv.pick_pos hp, ?_, Vhdl.utf8_bytes _⟩
    rcases Sv.eof_rule hmem with hn | ⟨hty, -⟩
    · exact Vhdl.longest_le hn (fun u hu _ => hu.length_le) hl
    · rw [Sv.hide_eq hmem, hty] at hh; cases hh

theorem vhdl_rules_noNl : (Vhdl.rules.all fun q => q.hide || noNl q.re) = true := by decide +kernel
theorem vhdl_next {x : Unit} {s : Str} {t : Vhdl.VTok} {n : Nat} {x' : Unit} (h : vhdlNext x s = some (some t, n, x')) :
    0 < n ∧ n ≤ s.length ∧ t.text = Lrm.bytes (s.take n) ∧ '\n' ∉ s.take n := by
  rw [vhdlNext] at h
  cases hp : pick Vhdl.LRule.re (Vhdl.rulesAt s) (syms s) with
  | none => rw [hp] at h; cases h
  | some x =>
    obtain ⟨r, k⟩ := x
    rw [hp] at h
    simp only [Option.some.injEq, Prod.mk.injEq] at h
    obtain ⟨h1, rfl, -⟩ := h
    obtain ⟨hr, w, t, rfl, rfl, hw, hL, -⟩ := Vhdl.chosen hp
    have hh : r.hide = false := by cases e : r.hide <;> simp [e] at h1 ⊢
    rw [hh] at h1
    simp only [Bool.false_eq_true, if_false, Option.some.injEq] at h1
    subst h1
    rw [List.take_left]
    refine ⟨List.length_pos_iff.2 hw, by simp, Vhdl.utf8_bytes _, ?_⟩
    have := List.all_eq_true.1 vhdl_rules_noNl r hr
    rw [hh, Bool.false_or] at this
    have := noNl_matches hL this
    intro hm
    exact this (List.mem_map.2 ⟨_, hm, rfl⟩)

/-- The position made from two tokens. -/
theorem from_placed {τ : Type} {T : τ → Str → Prop} {s : Str} {x y : τ × TokPos} (hs : s.length < 2 ^ 64) (hx : Placed T s x) (hy : Placed T s y)
    (hn : ∀ w, T y.1 w → '\n' ∉ w) : ∃ i n j m, At s (fromElem x.2 y.2).startLine (fromElem x.2 y.2).startCol i ∧ i + n < s.length ∧ T x.1 (slice s i (n + 1)) ∧
      At s (fromElem x.2 y.2).stopLine (fromElem x.2 y.2).stopCol (j + m) ∧ T y.1 (slice s j (m + 1)) ∧
      x.2.start = i ∧ x.2.stop = i + n ∧ y.2.start = j ∧ y.2.stop = j + m := by
  obtain ⟨a, b, c, rfl, hb, hT, e⟩ := hx
  obtain ⟨a', b', c', e', hb', hT', e''⟩ := hy
  have hbl : 0 < b.length := List.length_pos_iff.2 hb
  have hbl' : 0 < b'.length := List.length_pos_iff.2 hb'
  have hle : (advance (1, 0) a).2 ≤ a.length := by
    obtain ⟨f, l, rfl, -, -, h⟩ := advance_spec a
    rw [h]; simp
  have hle' : (advance (1, 0) a').2 ≤ a'.length := by
    obtain ⟨f, l, rfl, -, -, h⟩ := advance_spec a'
    rw [h]; simp
  have hlen : (a ++ (b ++ c)).length = a.length + b.length + c.length := by simp [Nat.add_assoc]
  have hlen' : (a ++ (b ++ c)).length = a'.length + b'.length + c'.length := by rw [e']; simp [Nat.add_assoc]
  refine ⟨a.length, b.length - 1, a'.length, b'.length - 1, ?_, by omega, ?_, ?_, ?_, by rw [e], by rw [e]; simp only []; omega, by rw [e''], by rw [e'']; simp only []; omega⟩
  · have : size ((advance (1, 0) a).2 + 1) = (advance (1, 0) a).2 + 1 := Nat.mod_eq_of_lt (by omega)
    rw [e]
    simp only [fromElem]
    rw [this]
    exact at_advance (by omega) List.take_left
  · rw [Nat.sub_add_cancel hbl, slice, List.drop_left, List.take_left]; exact hT
  · rw [e'']
    simp only [fromElem]
    have hk : size ((advance (1, 0) a').2 + (a'.length + b'.length - 1 + 2 ^ 64 - a'.length) + 1) = (advance (1, 0) a').2 + (b'.length - 1) + 1 := by
      have : (advance (1, 0) a').2 + (a'.length + b'.length - 1 + 2 ^ 64 - a'.length) + 1 = ((advance (1, 0) a').2 + (b'.length - 1) + 1) + 2 ^ 64 := by omega
      rw [size, this, Nat.add_mod_right]
      exact Nat.mod_eq_of_lt (by omega)
    rw [hk]
    obtain ⟨q, z, eb⟩ := List.eq_nil_or_concat b' |>.resolve_left hb'
    rw [List.concat_eq_append] at eb
    subst eb
    have hq : '\n' ∉ q := fun h => hn _ hT' (by simp [h])
    have hat := at_advance (s := a ++ (b ++ c)) (k := a'.length + ((q ++ [z]).length - 1)) (a := a' ++ q) (by omega) (by
      rw [e']
      simp [← List.append_assoc, List.take_append])
    rw [advance_append, ← Prod.mk.eta (p := advance (1, 0) a'), advance_line _ _ _ hq] at hat
    simpa using hat
  · rw [Nat.sub_add_cancel hbl', slice, e', List.drop_left, List.take_left]; exact hT'

end Verif.Position
