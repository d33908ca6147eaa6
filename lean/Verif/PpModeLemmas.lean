import Verif.PpDirLemmas
/-!
# Tokens of directives
-/
namespace Verif.Pp
open Verif.Antlr Verif.Antlr.Re
open Verif.Spec.Pp (idFirst idNext blank isName noHead keywords isEol blanks gapOk sepOk eolOk StrPiece strText strOk)

/-! ## line ends and blanks -/

theorem crlf_yes {e : Str} (h : isEol e = true) (t : Str) : longest CRLF (syms (e ++ t)) = some e.length := by
  simp only [isEol, Bool.or_eq_true, beq_iff_eq] at h
  rcases h with rfl | rfl
  · exact longest_step rfl (longest_eps t)
  · exact longest_step rfl (longest_step rfl (longest_eps t))

theorem crlf_no {t : Str} (h : NoHead (fun c => c == '\r' || c == '\n') t) : longest CRLF (syms t) = none := by
  refine longest_no rfl rfl fun c hc => ?_
  have := h c hc
  simp at this
  exact CRLF_der this.1 this.2

theorem ws_no {t : Str} (h : NoHead blank t) : longest (plus F_WS) (syms t) = none := plus_no der_ws rfl rfl h

theorem eol_head {e : Str} (h : isEol e = true) {p : Char → Bool} (h1 : p '\n' = false) (h2 : p '\r' = false) (t : Str) :
    NoHead p (e ++ t) := by
  simp only [isEol, Bool.or_eq_true, beq_iff_eq] at h
  rcases h with rfl | rfl
  · exact NoHead_cons.2 h1
  · exact NoHead_cons.2 h2

theorem eol_ne {e : Str} (h : isEol e = true) : e ≠ [] := by
  rintro rfl; simp [isEol] at h

theorem blanks_ne {s : Str} (h : blanks s = true) : s ≠ [] ∧ s.all blank = true := by
  simp only [blanks, Bool.and_eq_true, Bool.not_eq_true', List.isEmpty_eq_false_iff] at h
  exact h

theorem blank_head {s : Str} (hne : s ≠ []) (h : s.all blank = true) {p : Char → Bool} (h1 : p ' ' = false) (h2 : p '\t' = false)
    (t : Str) : NoHead p (s ++ t) := by
  cases s with
  | nil => exact absurd rfl hne
  | cons c s =>
    simp [blank] at h
    rcases h.1 with rfl | rfl
    · exact NoHead_cons.2 h1
    · exact NoHead_cons.2 h2

/-- Alternatives: the longer one. -/
theorem longest_alt_left {a b : Re} {s : List Sym} {n : Nat} (ha : longest a s = some n) (hb : longest b s = none) :
    longest (alt a b) s = some n := by
  rw [longest_some_iff] at *
  rw [longest_none_iff] at hb
  refine ⟨ha.1, .altL ha.2.1, fun m h1 h2 h3 => ?_⟩
  rcases matches_alt.1 h3 with h | h
  · exact ha.2.2 m h1 h2 h
  · exact hb m h

theorem longest_alt_right {a b : Re} {s : List Sym} {n : Nat} (ha : longest a s = none) (hb : longest b s = some n) :
    longest (alt a b) s = some n := by
  rw [longest_some_iff] at *
  rw [longest_none_iff] at ha
  refine ⟨hb.1, .altR hb.2.1, fun m h1 h2 h3 => ?_⟩
  rcases matches_alt.1 h3 with h | h
  · exact ha m h
  · exact hb.2.2 m h1 h2 h

theorem eof_no {t : Str} (h : t ≠ []) : longest eof (syms t) = none := by
  cases t with
  | nil => exact absurd rfl h
  | cons c t => rw [syms_cons, longest_dead rfl]; rfl

theorem anyws_eol {e : Str} (h : isEol e = true) (t : Str) : longest ANY_WS (syms (e ++ t)) = some e.length :=
  longest_alt_right (ws_no (eol_head h (by decide) (by decide) t)) (crlf_yes h t)

theorem anyws_ws {s t : Str} (h : blanks s = true) (ht : NoHead blank t) : longest ANY_WS (syms (s ++ t)) = some s.length :=
  longest_alt_left (longest_ws (blanks_ne h).1 (blanks_ne h).2 ht)
    (crlf_no (blank_head (blanks_ne h).1 (blanks_ne h).2 (by decide) (by decide) t))

theorem sep_len {s t : Str} (h : sepOk s t = true) : ∃ n, longest (alt ANY_WS eof) (syms (s ++ t)) = some n ∧
    (n = s.length ∨ t = [] ∧ s.length ≤ n) := by
  simp only [sepOk, gapOk, Bool.or_eq_true, Bool.and_eq_true, beq_iff_eq] at h
  rcases h with (h | h) | ⟨rfl, rfl⟩
  · exact ⟨_, longest_alt_left (anyws_eol h t) (eof_no (by simp [eol_ne h])), .inl rfl⟩
  · exact ⟨_, longest_alt_left (anyws_ws h.1.1 (noHead_iff.1 h.1.2)) (eof_no (by simp [(blanks_ne h.1.1).1])), .inl rfl⟩
  · exact ⟨1, rfl, .inr ⟨rfl, by simp⟩⟩

/-- Blanks in front of a line end. -/
def Z0 : Re := seq (seq (star F_WS) (star WSr)) CRLF

theorem Z0_ws {c : Char} (h : blank c = true) : Z0.der (some c) = Z0 := by
  simp [blank] at h; rcases h with rfl | rfl <;> rfl

theorem wsnl_yes {w e : Str} (hw : w.all blank = true) (he : isEol e = true) (t : Str) :
    longest WS_ENDING_NEW_LINE (syms ((w ++ e) ++ t)) = some (w ++ e).length := by
  have hne : (w ++ e) ++ t ≠ [] := by simp [eol_ne he]
  refine longest_alt_left ?_ (eof_no hne)
  rw [List.append_assoc]
  have hZ : longest Z0 (syms (e ++ t)) = some e.length := by
    simp only [isEol, Bool.or_eq_true, beq_iff_eq] at he
    rcases he with rfl | rfl
    · exact longest_step rfl (longest_eps t)
    · exact longest_step rfl (longest_step rfl (longest_eps t))
  cases w with
  | nil =>
    simp only [isEol, Bool.or_eq_true, beq_iff_eq] at he
    rcases he with rfl | rfl
    · exact longest_step rfl (longest_eps t)
    · exact longest_step rfl (longest_step rfl (longest_eps t))
  | cons c w =>
    simp only [List.all_cons, Bool.and_eq_true] at hw
    have h0 : (seq (star WSr) CRLF).der (some c) = Z0 := by
      have := hw.1
      simp [blank] at this; rcases this with rfl | rfl <;> rfl
    rw [List.cons_append, syms_cons, syms_append, longest_step h0 (longest_loop (p := fun c => blank c = true)
      (fun c hc => Z0_ws hc) (by simpa using hw.2) hZ)]
    simp

theorem matches_first {r : Re} {c : Sym} {s : List Sym} (h : Spec.Matches r (c :: s)) : r.der c ≠ .empty := by
  intro e
  rw [← matches_der, e] at h
  exact matches_empty h

theorem star_mem {p : Sym → Prop} {a : Re} (ha : ∀ w, Spec.Matches a w → ∀ c ∈ w, p c) {w : List Sym}
    (h : Spec.Matches (star a) w) : ∀ c ∈ w, p c := by
  generalize hr : Re.star a = r at h
  induction h with
  | star0 => intro c hc; simp at hc
  | star h1 h2 ih1 ih2 =>
    cases hr
    intro c hc
    rw [List.mem_append] at hc
    rcases hc with hc | hc
    · exact ha _ h1 c hc
    · exact ih2 rfl c hc
  | _ => cases hr

theorem matches_ws {w : List Sym} (h : Spec.Matches F_WS w) : ∀ c ∈ w, c = some ' ' ∨ c = some '\t' := by
  cases h with | set h => simp at h; rcases h with rfl | rfl <;> simp

theorem define_ws {ws rest : Str} (hw : blanks ws = true) (hr : ∃ c t, rest = c :: t ∧ idFirst c = true) :
    longest DEFr (syms (ws ++ rest)) = some ws.length := by
  obtain ⟨hne, hall⟩ := blanks_ne hw
  obtain ⟨c, t, rfl, hc⟩ := hr
  rw [longest_some_iff]
  refine ⟨by simp [syms], ?_, fun m h1 h2 h3 => ?_⟩
  · rw [syms_append, List.take_left' (by simp)]
    have hp : Spec.Matches (plus F_WS) (ws.map some) := by
      have := (longest_some_iff.1 (longest_ws (t := []) hne hall NoHead_nil)).2.1
      rwa [syms_append, List.take_left' (by simp)] at this
    have h0 : Spec.Matches (seqs [star F_LINE_ESCAPE,
        opt (seqs [alt LINE_COMMENTr COMMENTr, star F_WS, star F_LINE_ESCAPE]), star (alt F_WS F_LINE_ESCAPE)]) [] :=
      nullable_iff.1 rfl
    have := Spec.Matches.seq hp h0
    rwa [List.append_nil] at this
  · have hm : ∃ v, (syms (ws ++ c :: t)).take m = ws.map some ++ some c :: v := by
      rw [syms_append, syms_cons, List.take_append, List.length_map, List.take_of_length_le (by simp; omega)]
      obtain ⟨k, hk⟩ := Nat.exists_eq_succ_of_ne_zero (by omega : m - ws.length ≠ 0)
      rw [hk]
      exact ⟨_, rfl⟩
    obtain ⟨v, hv⟩ := hm
    rw [hv] at h3
    have hcws : some c ≠ some ' ' ∧ some c ≠ some '\t' :=
      ⟨by simpa using idFirst_ne hc (d := ' ') (by decide), by simpa using idFirst_ne hc (d := '\t') (by decide)⟩
    -- what is left behind the blanks of the first part starts with a blank or the character
    obtain ⟨u1, u2, e1, m1, m2⟩ := matches_seq.1 h3
    have hu1 : ∀ x ∈ u1, x = some ' ' ∨ x = some '\t' := by
      obtain ⟨a, b, e, ma, mb⟩ := matches_seq.1 m1
      intro x hx
      rw [e, List.mem_append] at hx
      rcases hx with hx | hx
      · exact matches_ws ma x hx
      · exact star_mem (fun w h => matches_ws h) mb x hx
    have key : ∀ (ws : Str) (u1 u2 : List Sym), ws.all blank = true → (∀ x ∈ u1, x = some ' ' ∨ x = some '\t') →
        ws.map some ++ some c :: v = u1 ++ u2 → ∃ ws' : Str, ws'.all blank = true ∧ u2 = ws'.map some ++ some c :: v := by
      intro ws
      induction ws with
      | nil =>
        intro u1 u2 _ hu e
        cases u1 with
        | nil => exact ⟨[], rfl, by simpa using e.symm⟩
        | cons x u1 =>
          simp at e
          have := hu x (by simp)
          rw [← e.1] at this
          exact absurd this (by simp at hcws ⊢; exact hcws)
      | cons d ws ih =>
        intro u1 u2 hw hu e
        cases u1 with
        | nil => exact ⟨d :: ws, hw, by simpa using e.symm⟩
        | cons x u1 =>
          simp only [List.map_cons, List.cons_append, List.cons.injEq] at e
          simp only [List.all_cons, Bool.and_eq_true] at hw
          exact ih u1 u2 hw.2 (fun y hy => hu y (by simp [hy])) e.2
    obtain ⟨ws', hws', rfl⟩ := key ws u1 u2 hall hu1 e1
    -- its first symbol
    have hfirst : ∀ r : Re, (∀ d, (blank d = true ∨ idFirst d = true) → r.der (some d) = .empty) →
        ∀ (w' : Str) (a b : List Sym), w'.all blank = true → Spec.Matches r a → w'.map some ++ some c :: v = a ++ b → a = [] := by
      intro r hr' w' a b hw' ha e
      cases a with
      | nil => rfl
      | cons x a =>
        exfalso
        refine matches_first ha ?_
        cases w' with
        | nil =>
          simp at e
          rw [← e.1]
          exact hr' c (.inr hc)
        | cons d w' =>
          simp at e
          rw [← e.1]
          simp only [List.all_cons, Bool.and_eq_true] at hw'
          exact hr' d (.inl hw'.1)
    have hbf : ∀ d : Char, (blank d = true ∨ idFirst d = true) → d ≠ '\\' ∧ d ≠ '/' := by
      intro d hd
      rcases hd with hd | hd
      · simp [blank] at hd; rcases hd with rfl | rfl <;> decide
      · exact ⟨idFirst_ne hd (by decide), idFirst_ne hd (by decide)⟩
    have hEsc : ∀ d, (blank d = true ∨ idFirst d = true) → (star F_LINE_ESCAPE).der (some d) = .empty := by
      intro d hd
      rw [der, F_LINE_ESCAPE, der_seq rfl, der_set1]
      simp [(hbf d hd).1, one, mkSeq]
    have hOpt : ∀ d, (blank d = true ∨ idFirst d = true) →
        (opt (seqs [alt LINE_COMMENTr COMMENTr, star F_WS, star F_LINE_ESCAPE])).der (some d) = .empty := by
      intro d hd
      have h1 : LINE_COMMENTr.der (some d) = .empty := by
        rw [LINE_COMMENTr, der_seq rfl, lit, der_seq rfl, der_set1]
        · simp [(hbf d hd).2, one, mkSeq]
        · simp
      have h2 : COMMENTr.der (some d) = .empty := by
        rw [COMMENTr, der_seq rfl, lit, der_seq rfl, der_set1]
        · simp [(hbf d hd).2, one, mkSeq]
        · simp
      have h3 : (alt LINE_COMMENTr COMMENTr).der (some d) = .empty := by rw [der, h1, h2]; rfl
      rw [opt, der, seqs, der_seq rfl, h3]
      · rfl
      · simp
    obtain ⟨u3, u4, e2, m3, m4⟩ := matches_seq.1 m2
    have := hfirst _ hEsc ws' u3 u4 hws' m3 e2
    subst this
    rw [List.nil_append] at e2
    obtain ⟨u5, u6, e3, m5, m6⟩ := matches_seq.1 m4
    have := hfirst _ hOpt ws' u5 u6 hws' m5 (e2.trans e3)
    subst this
    rw [List.nil_append] at e3
    have hmem := star_mem (p := fun x => x = some ' ' ∨ x = some '\t' ∨ x = some '\\' ∨ x = some '\r' ∨ x = some '\n') (by
      intro w hw x hx
      rcases matches_alt.1 hw with h | h
      · rcases matches_ws h x hx with h | h <;> simp [h]
      · obtain ⟨a, b, e, ma, mb⟩ := matches_seq.1 h
        rw [e, List.mem_append] at hx
        rcases hx with hx | hx
        · cases ma with | set h => simp at h hx; subst h; simp [hx]
        · obtain ⟨a', b', e', ma', mb'⟩ := matches_seq.1 mb
          rw [e', List.mem_append] at hx
          rcases hx with hx | hx
          · rcases matches_alt.1 ma' with h | h
            · cases h with | set h => simp at h hx; subst h; simp [hx]
            · rw [matches_eps.1 h] at hx; simp at hx
          · cases mb' with | set h => simp at h hx; subst h; simp [hx]) m6 (some c) (by rw [← e3, ← e2]; simp)
    simp only [Option.some.injEq] at hmem
    rcases hmem with h | h | h | h | h <;> subst h <;> exact absurd hc (by decide)

end Verif.Pp
