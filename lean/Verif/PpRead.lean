import Verif.PpReadsDef
/-!
# A source is read as it is structured
-/
namespace Verif.Pp
open Verif.Antlr Verif.Antlr.Re
open Verif.Spec.Pp (idFirst idNext blank blanks isEol isName noHead keywords StrPiece strText strOk
  ArgPiece argSpecial argText argAlt argOk balanced noComment commas BodyPiece bodyText bodyAlt bodyOk noLine Formal
  core bodyNode DefTail Item Items Rest after argToks gapOk sepOk)

/-- The nodes of the parts in front of others. -/
def app (p : Nat × Nat) : Items → Nodes → Nodes
  | .nil, ns => ns
  | .cons i r, ns => .cons (i.node p) (app (after p i.text) r ns)

theorem app_nil (is : Items) : ∀ p, app p is .nil = is.tree p := by
  intro p
  match is with
  | .nil => rfl
  | .cons i r => rw [app, app_nil r, Spec.Pp.Items.tree]

/-- A group of lines and what is behind it. -/
theorem group_rest {lang : Nat} {input : Str} {p : Nat × Nat} {i : Nat} {t u rest : Str} {add : Nodes → Nodes} {b : Branches}
    (hu : u ++ rest ≠ []) (h1 : ItemsReads lang input p i t (u ++ rest) add)
    (h2 : RestReads lang input (advance p t) (i + t.length) u rest b) :
    ∀ lp clp m, ∃ lp' clp' m' ts ps, Lexes ⟨.default, [], lp, clp, m⟩ p i (t ++ u) rest ⟨.default, [], lp', clp', m'⟩ ts ∧
      (∀ more, group [] (ts ++ more) = ps ++ group [] more) ∧
      ∀ id qs F, id.tok.ty = .ID → (rest = [] → nextTy qs = .EOF) → ps.length ≤ F →
        branches lang input (F + 1) (id :: (ps ++ qs)) = some (.elif id.tok.text p.1 (add .nil) b, qs) := by
  intro lp clp m
  obtain ⟨lp1, clp1, m1, ts1, ps1, a1, a2, a3, a4⟩ := h1 lp clp m
  obtain ⟨lp2, clp2, m2, ts2, ps2, b1, b2, ⟨t0, r0, rfl, b3, b3'⟩, b4⟩ := h2 lp1 clp1 m1
  refine ⟨lp2, clp2, m2, ts1 ++ ts2, ps1 ++ t0 :: r0, a1.trans b1, ?_, ?_⟩
  · intro more
    rw [List.append_assoc, a2, b2, List.append_assoc]
  · intro id qs F hid hr hF
    rw [List.length_append, List.length_cons] at hF
    have hstop : textStar lang input 1 (t0 :: r0 ++ qs) = some (.nil, t0 :: r0 ++ qs) := textStar_stop (Nat.le_refl 1) (.inl b3')
    have hg := textStar_mono (show 1 + ps1.length ≤ F by omega)
      (a4 (t0 :: r0 ++ qs) 1 .nil _ (fun h => absurd h hu) hstop)
    have hb := b4 qs F hr (by simp only [List.length_cons]; omega)
    have hline : nextLine (ps1 ++ (t0 :: r0 ++ qs)) = p.1 := by
      rcases a3 with ⟨rfl, rfl⟩ | ⟨x, y, rfl, hx⟩
      · exact b3
      · exact hx
    rw [List.append_assoc, branches_eq hid hg hb, hline]

theorem noHead_append {q : Char → Bool} {s t : Str} (h : noHead q s = true) (hs : s ≠ []) : NoHead q (s ++ t) := by
  match s, hs with
  | c :: s, _ => simp [noHead] at h; exact NoHead_cons.2 h

theorem rest_bt (r : Rest) : ∃ c u, r.text = '`' :: c :: u ∧ idFirst c = true := by
  cases r with
  | endif s => exact ⟨'e', _, rfl, by decide⟩
  | els a b c => exact ⟨'e', _, rfl, by decide⟩
  | elif a b c d => exact ⟨'e', _, rfl, by decide⟩

theorem rest_end (r : Rest) (rest : Str) : CodeEnd (r.text ++ rest) := by
  obtain ⟨c, u, h, hc⟩ := rest_bt r
  rw [h]
  exact .inr (.inr (.inr (.inr ⟨c, _, rfl, btEnd_first hc⟩)))

theorem name_bt {n : Str} (h : isName n = true) (t : Str) : ∃ c r, '`' :: (n ++ t) = '`' :: c :: r ∧ idFirst c = true := by
  match n, h with
  | c :: n, h => exact ⟨c, _, rfl, by simp [isName] at h; exact h.1⟩

theorem item_end {lang : Nat} {x : Item} {rest : Str} (h : x.ok lang rest = true) (hx : ∀ l, x ≠ .code l) (t : Str) :
    CodeEnd (x.text ++ t) := by
  have hbt : ∀ {s : Str}, (∃ c r, s = '`' :: c :: r ∧ idFirst c = true) → CodeEnd s :=
    fun ⟨c, r, e, h⟩ => .inr (.inr (.inr (.inr ⟨c, r, e, btEnd_first h⟩)))
  cases x with
  | code l => exact absurd rfl (hx l)
  | str l => exact .inr (.inl ⟨_, rfl⟩)
  | lineComment s e => exact .inr (.inr (.inl ⟨_, rfl⟩))
  | comment s => exact .inr (.inr (.inr (.inl ⟨_, rfl⟩)))
  | define a b c d => exact hbt ⟨'d', _, rfl, by decide⟩
  | undef a b c => exact hbt ⟨'u', _, rfl, by decide⟩
  | undefineall a b => exact hbt ⟨'u', _, rfl, by decide⟩
  | simple k a b =>
    simp only [Spec.Pp.Item.ok, Bool.and_eq_true, List.contains_iff_mem] at h
    have hk := h.1.1
    simp only [Spec.Pp.simples, List.mem_cons, List.not_mem_nil, or_false] at hk
    rcases hk with rfl | rfl | rfl | rfl <;> exact hbt ⟨_, _, rfl, by decide⟩
  | call n =>
    simp only [Spec.Pp.Item.ok, Bool.and_eq_true] at h
    exact hbt (name_bt h.1.1 t)
  | callArgs n w a =>
    simp only [Spec.Pp.Item.ok, Bool.and_eq_true] at h
    have := name_bt h.1.1.1.1 (w ++ '(' :: commas (a.map argText) ++ [')'] ++ t)
    refine hbt ?_
    simpa [Spec.Pp.Item.text] using this
  | incl a b c d => exact hbt ⟨'i', _, rfl, by decide⟩
  | cond neg a b c d =>
    cases neg
    · exact hbt ⟨'i', _, rfl, by decide⟩
    · exact hbt ⟨'i', _, rfl, by decide⟩

theorem items_end {lang : Nat} {g : Items} {rest : Str} (h : g.ok lang rest = true) (hn : g.noCode = true) (hr : CodeEnd rest) :
    CodeEnd (g.text ++ rest) := by
  cases g with
  | nil => exact hr
  | cons x r =>
    simp only [Spec.Pp.Items.ok, Bool.and_eq_true] at h
    rw [Spec.Pp.Items.text, List.append_assoc]
    refine item_end h.1.1 ?_ _
    rintro l rfl
    simp [Spec.Pp.Items.noCode] at hn

theorem drop_add {input t u : Str} {i : Nat} (h : input.drop i = t ++ u) : input.drop (i + t.length) = u := by
  rw [← List.drop_drop, h, List.drop_left]

theorem ifdef_exec (ty : TT) (re : Re) (st : St) (t : Str) : (⟨ty, re, [pop, push .ifdef]⟩ : Rule).exec st t =
    ⟨(push .ifdef (pop ⟨st, ty, false, .default, t, false⟩)).st, ty, false, .default, t,
      (pop ⟨st, ty, false, .default, t, false⟩).fail⟩ := by
  obtain ⟨a, stk, b, c, d⟩ := st
  cases stk <;> rfl

mutual
theorem item_reads {lang : Nat} {input : Str} (x : Item) (p : Nat × Nat) (i : Nat) (rest : Str) (h : x.ok lang rest = true)
    (hc : ∀ l, x = .code l → CodeEnd rest) (hin : input.drop i = x.text ++ rest) :
    ItemReads lang input p i x.text rest (x.node p) := by
  match x, h, hc, hin with
  | .code l, h, hc, _ =>
    simp only [Spec.Pp.Item.ok, Bool.and_eq_true, Bool.not_eq_true', List.isEmpty_eq_false_iff] at h
    exact reads_copied (ty := .CODE) rfl fun lp clp m => lex_code h.2 h.1 (hc l rfl) p i
  | .str l, h, _, _ =>
    exact reads_copied (ty := .STR) rfl fun lp clp m => lex_str (by simpa [Spec.Pp.Item.ok] using h) p i rest
  | .lineComment s e, h, _, _ =>
    simp only [Spec.Pp.Item.ok, Bool.and_eq_true] at h
    exact reads_copied (ty := .LINE_COMMENT) rfl fun lp clp m => lex_line h.1 h.2 p i
  | .comment s, h, _, _ =>
    exact reads_copied (ty := .COMMENT) rfl fun lp clp m => lex_comment (by simpa [Spec.Pp.Item.ok] using h) p i rest
  | .define ws n tail eol, h, _, _ =>
    simp only [Spec.Pp.Item.ok, Bool.and_eq_true, Bool.or_eq_true, beq_iff_eq] at h
    refine reads_define h.1.1.1 h.1.1.2 h.1.2 ?_
    rcases h.2 with (h | h) | h
    · exact .inl h
    · exact .inr (.inl h)
    · exact .inr (.inr ⟨h.1.1, h.1.2, h.2⟩)
  | .undef ws n sep, h, _, _ =>
    simp only [Spec.Pp.Item.ok, Bool.and_eq_true, Bool.or_eq_true, beq_iff_eq] at h
    refine reads_undef h.1.1 h.1.2 ?_
    rcases h.2 with ((h | h) | h) | h
    · exact .inl h
    · exact .inr (.inl h)
    · exact .inr (.inr (.inl h))
    · exact .inr (.inr (.inr h))
  | .undefineall ws eol, h, _, _ =>
    simp only [Spec.Pp.Item.ok, Bool.and_eq_true, decide_eq_true_eq] at h
    exact reads_undefineall h.1.1 h.1.2 h.2
  | .simple k ws eol, h, _, _ =>
    simp only [Spec.Pp.Item.ok, Bool.and_eq_true, List.contains_iff_mem] at h
    exact reads_simple h.1.1 h.1.2 h.2
  | .call n, h, _, _ =>
    simp only [Spec.Pp.Item.ok, Bool.and_eq_true, Bool.not_eq_true', ← Bool.not_eq_true, List.contains_iff_mem] at h
    exact reads_call h.1.1 h.1.2 h.2
  | .callArgs n ws as, h, _, hin =>
    simp only [Spec.Pp.Item.ok, Bool.and_eq_true, Bool.not_eq_true', ← Bool.not_eq_true, List.contains_iff_mem, List.isEmpty_iff] at h
    exact reads_callArgs h.1.1.1.1 h.1.1.1.2 h.1.1.2 h.1.2 h.2 hin
  | .incl ws f ws' eol, h, _, _ =>
    simp only [Spec.Pp.Item.ok, Bool.and_eq_true] at h
    exact reads_incl h.1.1.1 h.1.1.2 h.1.2 h.2
  | .cond neg ws n g r, h, _, hin =>
    simp only [Spec.Pp.Item.ok, Bool.and_eq_true] at h
    obtain ⟨⟨⟨⟨hw, hn⟩, hh⟩, hg⟩, hr⟩ := h
    have hne : r.text ≠ [] := by obtain ⟨c, u, h, _⟩ := rest_bt r; rw [h]; simp
    have hid : NoHead idNext ((g.text ++ r.text) ++ rest) := noHead_append hh (by simp [hne])
    rw [Spec.Pp.Item.text, List.append_assoc _ g.text] at hin ⊢
    rw [List.append_assoc _ _ rest] at hin
    have hi1 := drop_add hin
    rw [List.append_assoc g.text] at hi1
    have hi2 := drop_add hi1
    have hgr := group_rest (rest := rest) (by simp [hne])
      (items_reads g (advance p ((if neg then c! "`ifndef" else c! "`ifdef") ++ ws ++ n)) _ (r.text ++ rest) hg (rest_end r rest) hi1)
      (rest_reads r _ _ rest hr hi2)
    intro lp clp m
    obtain ⟨lp', clp', m', ts, ps, e1, e2, e3⟩ := hgr lp clp m
    have hk : ∃ t0 t1, t0.ty = (if neg then TT.IFNDEF else TT.IFDEF) ∧ t0.chan = .default ∧ t0.line = p.1 ∧ t1.ty = .ID ∧ t1.chan = .default ∧ t1.text = n ∧
        Lexes ⟨.default, [], lp, clp, m⟩ p i ((if neg then c! "`ifndef" else c! "`ifdef") ++ ws ++ n) ((g.text ++ r.text) ++ rest) ⟨.default, [], lp, clp, m⟩ [t0, t1] := by
      cases neg
      · exact ⟨_, _, rfl, rfl, rfl, rfl, rfl, rfl, lex_ifdef (j := 3) (d := (c! "ifdef", plus F_WS)) (ty := .IFDEF) rfl rfl rfl (ifdef_exec _ _) hw hn hid p i⟩
      · exact ⟨_, _, rfl, rfl, rfl, rfl, rfl, rfl, lex_ifdef (j := 2) (d := (c! "ifndef", plus F_WS)) (ty := .IFNDEF) rfl rfl rfl (ifdef_exec _ _) hw hn hid p i⟩
    obtain ⟨t0, t1, k1, k2, k3, k4, k5, k6, k7⟩ := hk
    refine ⟨lp', clp', m', t0 :: t1 :: ts, ⟨t0, []⟩ :: ⟨t1, []⟩ :: ps, k7.trans e1, ?_, ⟨_, _, rfl, k3⟩, ?_⟩
    · intro more
      rw [List.cons_append, List.cons_append, group, if_pos k2, group, if_pos k5, e2]; rfl
    · intro qs f ns rr hq hs
      have hb := e3 ⟨t1, []⟩ qs (f + ps.length) k4 hq (by omega)
      have := textStar_cond (t := ⟨t0, []⟩) (ps := ⟨t1, []⟩ :: ps) (k := ps.length + 1) (neg := neg) k1 hb hs
      rw [Spec.Pp.Item.node, after_eq, after_eq, ← app_nil]
      simp only [k6] at this
      exact this
theorem items_reads {lang : Nat} {input : Str} (g : Items) (p : Nat × Nat) (i : Nat) (rest : Str) (h : g.ok lang rest = true)
    (hc : CodeEnd rest) (hin : input.drop i = g.text ++ rest) : ItemsReads lang input p i g.text rest (app p g) := by
  match g, h, hin with
  | .nil, _, _ => exact ItemsReads.nil lang input p i rest
  | .cons x r, h, hin =>
    simp only [Spec.Pp.Items.ok, Bool.and_eq_true] at h
    rw [Spec.Pp.Items.text] at hin ⊢
    rw [List.append_assoc] at hin
    have h1 := item_reads (lang := lang) (input := input) x p i (r.text ++ rest) h.1.1
      (by rintro l rfl; exact items_end h.1.2 h.2 hc) hin
    have h2 := items_reads (lang := lang) (input := input) r (after p x.text) (i + x.text.length) rest h.1.2 hc (drop_add hin)
    rw [after_eq] at h2
    have := ItemsReads.cons h1 h2
    rw [← after_eq] at this
    exact this
theorem rest_reads {lang : Nat} {input : Str} (r : Rest) (p : Nat × Nat) (i : Nat) (rest : Str) (h : r.ok lang rest = true)
    (hin : input.drop i = r.text ++ rest) : RestReads lang input p i r.text rest (r.tree p) := by
  match r, h, hin with
  | .endif sep, h, _ =>
    intro lp clp m
    refine ⟨lp, clp, m, _, wrap _, lex_endif (by simpa [Spec.Pp.Rest.ok] using h) p i, group_wrap (by simp [tk]), ⟨_, _, rfl, rfl, .inr (.inr rfl)⟩, ?_⟩
    intro qs F _ _
    rfl
  | .els sep g sep', h, hin =>
    simp only [Spec.Pp.Rest.ok, Bool.and_eq_true, Bool.or_eq_true] at h
    obtain ⟨⟨hs, hg⟩, hs'⟩ := h
    have e : (Rest.els sep g sep').text = ('`' :: (c! "else" ++ sep)) ++ (g.text ++ ('`' :: (c! "endif" ++ sep'))) := by
      simp [Spec.Pp.Rest.text]
    rw [e] at hin ⊢
    rw [List.append_assoc] at hin
    have hi1 := drop_add hin
    rw [List.append_assoc] at hi1
    intro lp clp m
    have h1 := lex_else (stk := []) (lp := lp) (clp := clp) (m := m) (sep := sep) (rest := (g.text ++ ('`' :: (c! "endif" ++ sep'))) ++ rest) (by
      rcases hs with hs | hs
      · exact .inl hs
      · refine .inr ?_
        simp only [gapOk, Bool.and_eq_true] at hs ⊢
        have hne : g.text ++ c! "`endif" ≠ [] := by simp
        have e2 : (g.text ++ ('`' :: (c! "endif" ++ sep'))) ++ rest = (g.text ++ c! "`endif") ++ (sep' ++ rest) := by simp
        rw [e2]
        exact ⟨⟨hs.1.1, noHead_iff.2 (noHead_append hs.1.2 hne)⟩, noHead_iff.2 (noHead_append hs.2 hne)⟩) p i
    obtain ⟨lp1, clp1, m1, ts1, ps1, a1, a2, a3, a4⟩ := items_reads (lang := lang) (input := input) g (advance p ('`' :: (c! "else" ++ sep)))
      (i + ('`' :: (c! "else" ++ sep)).length) (('`' :: (c! "endif" ++ sep')) ++ rest) hg (.inr (.inr (.inr (.inr ⟨'e', _, rfl, by decide⟩)))) hi1 lp clp m
    have h2 := h1.trans (a1.trans (lex_endif (stk := []) (lp := lp1) (clp := clp1) (m := m1) hs' _ _))
    refine ⟨lp1, clp1, m1, _, ⟨tk .ELSE .default (c! "else" ++ sep) (p.1, p.2 + 1) (i + 1), []⟩ :: (ps1 ++
      [⟨tk .ENDIF .default (c! "endif" ++ sep') ((advance (advance p ('`' :: (c! "else" ++ sep))) g.text).1, (advance (advance p ('`' :: (c! "else" ++ sep))) g.text).2 + 1) (i + ('`' :: (c! "else" ++ sep)).length + g.text.length + 1), []⟩]),
      h2, ?_, ⟨_, _, rfl, rfl, .inr (.inl rfl)⟩, ?_⟩
    · intro more
      rw [List.singleton_append, List.cons_append, group, if_pos (by rfl), List.append_assoc, a2, List.singleton_append, group, if_pos (by rfl)]
      simp
    · intro qs F hq hF
      rw [List.length_cons, List.length_append] at hF
      simp only [List.length_singleton] at hF
      have hstop := textStar_stop (lang := lang) (input := input) (Nat.le_refl 1) (t := ⟨tk .ENDIF .default (c! "endif" ++ sep') ((advance (advance p ('`' :: (c! "else" ++ sep))) g.text).1, (advance (advance p ('`' :: (c! "else" ++ sep))) g.text).2 + 1) (i + ('`' :: (c! "else" ++ sep)).length + g.text.length + 1), []⟩) (r := qs) (.inl (.inr (.inr rfl)))
      have hg := textStar_mono (show 1 + ps1.length ≤ F by omega) (a4 _ 1 .nil _ (fun h => by simp at h) hstop)
      rw [List.cons_append, List.append_assoc, List.singleton_append]
      generalize hE : (⟨tk .ENDIF .default (c! "endif" ++ sep') ((advance (advance p ('`' :: (c! "else" ++ sep))) g.text).1, (advance (advance p ('`' :: (c! "else" ++ sep))) g.text).2 + 1) (i + ('`' :: (c! "else" ++ sep)).length + g.text.length + 1), []⟩ : PTok) = E at hg ⊢
      have hE1 : E.tok.ty = .ENDIF := by rw [← hE]; rfl
      have hE2 : E.tok.line = (advance (advance p ('`' :: (c! "else" ++ sep))) g.text).1 := by rw [← hE]; rfl
      rw [branchTail]
      simp only [nextTy, tk, List.drop_one, List.tail_cons]
      rw [hg]
      simp only [Option.bind_eq_bind, Option.bind_some]
      rw [expect_cons hE1]
      have hline : ∀ (x : PTok) y, x.tok.line = (advance (advance p ('`' :: (c! "else" ++ sep))) g.text).1 → nextLine (ps1 ++ x :: y) = (advance p ('`' :: (c! "else" ++ sep))).1 := by
        intro x y hx
        rcases a3 with ⟨rfl, h⟩ | ⟨x, y, rfl, hx⟩
        · rw [h] at hx; exact hx
        · exact hx
      simp only [Option.bind_some, Option.pure_def]
      rw [hline _ _ hE2, app_nil, Spec.Pp.Rest.tree, after_eq]
      rfl
  | .elif ws n g r, h, hin =>
    simp only [Spec.Pp.Rest.ok, Bool.and_eq_true] at h
    obtain ⟨⟨⟨⟨hw, hn⟩, hh⟩, hg⟩, hr⟩ := h
    have hne : r.text ≠ [] := by obtain ⟨c, u, h, _⟩ := rest_bt r; rw [h]; simp
    have hid : NoHead idNext ((g.text ++ r.text) ++ rest) := noHead_append hh (by simp [hne])
    rw [Spec.Pp.Rest.text, List.append_assoc _ g.text] at hin ⊢
    rw [List.append_assoc _ _ rest] at hin
    have hi1 := drop_add hin
    rw [List.append_assoc g.text] at hi1
    have hi2 := drop_add hi1
    have hgr := group_rest (rest := rest) (by simp [hne])
      (items_reads g (advance p (c! "`elsif" ++ ws ++ n)) _ (r.text ++ rest) hg (rest_end r rest) hi1)
      (rest_reads r _ _ rest hr hi2)
    intro lp clp m
    obtain ⟨lp', clp', m', ts, ps, e1, e2, e3⟩ := hgr lp clp m
    have k7 := (lex_ifdef (stk := []) (lp := lp) (clp := clp) (m := m) (j := 4) (d := (c! "elsif", plus F_WS)) (ty := .ELSIF) rfl rfl rfl (ifdef_exec _ _) hw hn hid p i).trans e1
    refine ⟨lp', clp', m', _, ⟨tk .ELSIF .default (c! "elsif" ++ ws) (p.1, p.2 + 1) (i + 1), []⟩ ::
      ⟨tk .ID .default n (advance p ('`' :: (c! "elsif" ++ ws))) (i + ('`' :: (c! "elsif" ++ ws)).length), []⟩ :: ps, k7, ?_, ⟨_, _, rfl, rfl, .inl rfl⟩, ?_⟩
    · intro more
      rw [List.append_assoc]
      show group [] (_ :: _ :: (ts ++ more)) = _
      rw [group, if_pos (by rfl), group, if_pos (by rfl), e2]; rfl
    · intro qs F hq hF
      simp only [List.length_cons] at hF
      obtain ⟨F', rfl⟩ := Nat.exists_eq_add_of_le (show 1 ≤ F by omega)
      rw [branchTail]
      simp only [List.cons_append, nextTy, tk, List.drop_one, List.tail_cons]
      rw [Nat.add_comm 1 F']
      rw [e3 _ qs F' rfl hq (by omega)]
      rw [Spec.Pp.Rest.tree, after_eq, after_eq, ← app_nil]
end

theorem parse_reads {lang : Nat} {is : Items} (h : is.ok lang [] = true) : parseText lang is.text = some (is.tree (1, 0)) := by
  obtain ⟨lp, clp, m, ts, ps, h1, h2, _, h4⟩ := items_reads (lang := lang) (input := is.text) is (1, 0) 0 [] h (.inl rfl) (by simp) false false
    St.init.meta'
  unfold Lexes at h1
  rw [List.append_nil, lexR_nil] at h1
  have hlex : lex is.text = some ts := by
    show lexR St.init (1, 0) 0 is.text = _
    rw [show St.init = ⟨.default, [], false, false, St.init.meta'⟩ from rfl, h1]; simp
  have hg := h2 []
  rw [List.append_nil] at hg
  have hstop : ∃ e, group [] [] = [e] ∧ e.tok.ty = .EOF := ⟨_, rfl, rfl⟩
  obtain ⟨e, he, hty⟩ := hstop
  have := h4 [e] 1 .nil [e] (fun _ => hty) (textStar_stop (Nat.le_refl 1) (.inr hty))
  simp only [parseText, Option.bind_eq_bind, hlex, Option.bind_some, hg, file, he]
  rw [textStar_mono (by simp; omega) this]
  simp [nextTy, hty, app_nil]

end Verif.Pp
