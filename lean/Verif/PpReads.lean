import Verif.PpBodyLemmas
/-!
# Lexer and parser on the parts of a source
-/
namespace Verif.Pp
open Verif.Antlr Verif.Antlr.Re
open Verif.Spec.Pp (idFirst idNext blank blanks isEol isName noHead keywords StrPiece strText strOk
  ArgPiece argSpecial argText argAlt argOk balanced noComment commas BodyPiece bodyText bodyAlt bodyOk noLine Formal
  core bodyNode DefTail Item Items Rest after argToks)

/-! ## fuel -/

theorem parse_mono (lang : Nat) (input : Str) (f : Nat) :
    (∀ ts x, textStar lang input f ts = some x → textStar lang input (f + 1) ts = some x) ∧
    (∀ ts x, branches lang input f ts = some x → branches lang input (f + 1) ts = some x) := by
  induction f with
  | zero => exact ⟨fun ts x h => by simp [textStar] at h, fun ts x h => by simp [branches] at h⟩
  | succ f ih =>
    refine ⟨fun ts x h => ?_, fun ts x h => ?_⟩
    · cases ts with
      | nil => rw [textStar] at h ⊢; exact h
      | cons t r =>
        rw [textStar] at h ⊢
        split
        · rename_i hc
          rw [if_pos hc] at h
          simp only [Option.bind_eq_bind, Option.bind_eq_some_iff, Option.pure_def] at h ⊢
          obtain ⟨a, ha, h⟩ := h
          exact ⟨a, ih.1 _ _ ha, h⟩
        · rename_i hc
          rw [if_neg hc] at h
          split
          · rename_i hi
            rw [if_pos hi] at h
            simp only [Option.bind_eq_bind, Option.bind_eq_some_iff, Option.pure_def] at h ⊢
            obtain ⟨a, ha, b, hb, h⟩ := h
            exact ⟨a, ih.2 _ _ ha, b, ih.1 _ _ hb, h⟩
          · rename_i hi
            rw [if_neg hi] at h
            split
            · rename_i hs
              rw [if_pos hs] at h
              simp only [Option.bind_eq_bind, Option.bind_eq_some_iff, Option.pure_def] at h ⊢
              obtain ⟨a, ha, b, hb, h⟩ := h
              exact ⟨a, ha, b, ih.1 _ _ hb, h⟩
            · rename_i hs
              rw [if_neg hs] at h
              exact h
    · rw [branches] at h ⊢
      simp only [Option.bind_eq_bind, Option.bind_eq_some_iff, Option.pure_def] at h ⊢
      obtain ⟨a, ha, b, hb, h⟩ := h
      refine ⟨a, ha, b, ih.1 _ _ hb, ?_⟩
      revert h
      split
      · intro h
        simp only [Option.bind_eq_some_iff] at h ⊢
        obtain ⟨c, hc, h⟩ := h
        exact ⟨c, ih.2 _ _ hc, h⟩
      · intro h
        simp only [Option.bind_eq_some_iff] at h ⊢
        obtain ⟨c, hc, d, hd, h⟩ := h
        exact ⟨c, ih.1 _ _ hc, d, hd, h⟩
      · exact id
      · exact id

theorem textStar_mono {lang : Nat} {input : Str} {f g : Nat} (hfg : f ≤ g) {ts : List PTok} {x : Nodes × List PTok}
    (h : textStar lang input f ts = some x) : textStar lang input g ts = some x := by
  induction hfg with
  | refl => exact h
  | step _ ih => exact (parse_mono lang input _).1 _ _ ih

/-- What `branches` does behind a group of lines. -/
def branchTail (lang : Nat) (input : Str) (fuel : Nat) (r : List PTok) : Option (Branches × List PTok) :=
  match nextTy r with
  | .ELSIF => branches lang input fuel (r.drop 1)
  | .ELSE => do
    let (g', r') ← textStar lang input fuel (r.drop 1)
    let (_, r') ← expect .ENDIF r'
    return (.els (nextLine (r.drop 1)) g', r')
  | .ENDIF => some (.endif, r.drop 1)
  | _ => none

theorem branches_eq {lang : Nat} {input : Str} {fuel : Nat} {i : PTok} {ts r r' : List PTok} {g : Nodes} {b : Branches}
    (hi : i.tok.ty = .ID) (hg : textStar lang input fuel ts = some (g, r)) (hb : branchTail lang input fuel r = some (b, r')) :
    branches lang input (fuel + 1) (i :: ts) = some (.elif i.tok.text (nextLine ts) g b, r') := by
  rw [branches]
  simp only [Option.bind_eq_bind, expect_cons hi, Option.bind_some, hg, Option.pure_def]
  unfold branchTail at hb
  split
  · rename_i h
    rw [h] at hb
    simp only at hb
    rw [hb]; rfl
  · rename_i h
    rw [h] at hb
    simp only [Option.bind_eq_bind, Option.bind_eq_some_iff, Option.pure_def, Option.some.injEq, Prod.mk.injEq] at hb
    obtain ⟨x, hx, y, hy, rfl, rfl⟩ := hb
    simp only [hx, hy, Option.bind_some]
  · rename_i h
    rw [h] at hb
    simp only [Option.some.injEq, Prod.mk.injEq] at hb
    obtain ⟨rfl, rfl⟩ := hb
    rfl
  · rename_i h1 h2 h3
    revert hb
    split
    · rename_i h; exact absurd h h1
    · rename_i h; exact absurd h h2
    · rename_i h; exact absurd h h3
    · intro h; cases h

/-- A token which ends a group of lines. -/
def endsGroup (ty : TT) : Prop := ty = .ELSIF ∨ ty = .ELSE ∨ ty = .ENDIF

theorem textStar_stop {lang : Nat} {input : Str} {f : Nat} (hf : 1 ≤ f) {t : PTok} {r : List PTok} (h : endsGroup t.tok.ty ∨ t.tok.ty = .EOF) :
    textStar lang input f (t :: r) = some (.nil, t :: r) := by
  refine textStar_mono hf ?_
  rw [textStar]
  rcases h with (h | h | h) | h <;> simp [h, copied, startsDirective]

theorem textStar_copied {lang : Nat} {input : Str} {f : Nat} {t : PTok} {qs r : List PTok} {ns : Nodes} (hc : copied t.tok.ty = true)
    (h : textStar lang input f qs = some (ns, r)) :
    textStar lang input (f + 1) (t :: qs) = some (.cons (.code t.tok.line t.tok.text) ns, r) := by
  rw [textStar, if_pos hc]
  simp [h]

theorem textStar_dir {lang : Nat} {input : Str} {f k : Nat} (hk : 1 ≤ k) {t : PTok} {ps qs r : List PTok} {n : Node} {ns : Nodes}
    (hs : startsDirective t.tok.ty = true) (hd : directive lang input t (ps ++ qs) = some (n, qs))
    (h : textStar lang input f qs = some (ns, r)) :
    textStar lang input (f + k) (t :: ps ++ qs) = some (.cons n ns, r) := by
  obtain ⟨k, rfl⟩ := Nat.exists_eq_add_of_le hk
  have hc : copied t.tok.ty = false := by
    revert hs
    cases t.tok.ty <;> simp [copied, startsDirective]
  have hi : ¬ (t.tok.ty = .IFDEF ∨ t.tok.ty = .IFNDEF) := by
    rintro (h | h) <;> simp [h, startsDirective] at hs
  have hm : textStar lang input (f + k) qs = some (ns, r) := textStar_mono (by omega) h
  have : f + (1 + k) = (f + k) + 1 := by omega
  rw [this, List.cons_append, textStar, hc, if_neg (by simp), if_neg hi, if_pos hs]
  simp [hd, hm]

theorem textStar_cond {lang : Nat} {input : Str} {f k : Nat} {t : PTok} {ps qs r : List PTok} {b : Branches} {ns : Nodes}
    {neg : Bool} (ht : t.tok.ty = if neg then .IFNDEF else .IFDEF) (hb : branches lang input (f + k) (ps ++ qs) = some (b, qs))
    (h : textStar lang input f qs = some (ns, r)) :
    textStar lang input (f + k + 1) (t :: ps ++ qs) = some (.cons (.cond neg b) ns, r) := by
  have hc : copied t.tok.ty = false := by rw [ht]; cases neg <;> rfl
  have hi : t.tok.ty = .IFDEF ∨ t.tok.ty = .IFNDEF := by rw [ht]; cases neg <;> simp
  have hm : textStar lang input (f + k) qs = some (ns, r) := textStar_mono (by omega) h
  have hneg : decide (t.tok.ty = .IFNDEF) = neg := by rw [ht]; cases neg <;> decide
  rw [List.cons_append, textStar, hc, if_neg (by simp), if_pos hi]
  simp [hb, hm, hneg]

/-! ## reading -/

theorem after_eq (p : Nat × Nat) (s : Str) : after p s = advance p s := by
  induction s generalizing p with
  | nil => rfl
  | cons c s ih =>
    obtain ⟨l, k⟩ := p
    rw [after, advance]
    split <;> rw [ih]

/-- The lexer and the parser read a part of the source as this node. -/
def ItemReads (lang : Nat) (input : Str) (p : Nat × Nat) (i : Nat) (t rest : Str) (node : Node) : Prop :=
  ∀ lp clp m, ∃ lp' clp' m' ts ps, Lexes ⟨.default, [], lp, clp, m⟩ p i t rest ⟨.default, [], lp', clp', m'⟩ ts ∧
    (∀ more, group [] (ts ++ more) = ps ++ group [] more) ∧ (∃ t0 r0, ps = t0 :: r0 ∧ t0.tok.line = p.1) ∧
    ∀ qs f ns r, (rest = [] → nextTy qs = .EOF) → textStar lang input f qs = some (ns, r) →
      textStar lang input (f + ps.length) (ps ++ qs) = some (.cons node ns, r)

/-- They read a sequence of parts. -/
def ItemsReads (lang : Nat) (input : Str) (p : Nat × Nat) (i : Nat) (t rest : Str) (add : Nodes → Nodes) : Prop :=
  ∀ lp clp m, ∃ lp' clp' m' ts ps, Lexes ⟨.default, [], lp, clp, m⟩ p i t rest ⟨.default, [], lp', clp', m'⟩ ts ∧
    (∀ more, group [] (ts ++ more) = ps ++ group [] more) ∧
    ((ps = [] ∧ t = []) ∨ ∃ t0 r0, ps = t0 :: r0 ∧ t0.tok.line = p.1) ∧
    ∀ qs f ns r, (rest = [] → nextTy qs = .EOF) → textStar lang input f qs = some (ns, r) →
      textStar lang input (f + ps.length) (ps ++ qs) = some (add ns, r)

/-- They read the rest of a conditional. -/
def RestReads (lang : Nat) (input : Str) (p : Nat × Nat) (i : Nat) (t rest : Str) (b : Branches) : Prop :=
  ∀ lp clp m, ∃ lp' clp' m' ts ps, Lexes ⟨.default, [], lp, clp, m⟩ p i t rest ⟨.default, [], lp', clp', m'⟩ ts ∧
    (∀ more, group [] (ts ++ more) = ps ++ group [] more) ∧
    (∃ t0 r0, ps = t0 :: r0 ∧ t0.tok.line = p.1 ∧ endsGroup t0.tok.ty) ∧
    ∀ qs F, (rest = [] → nextTy qs = .EOF) → ps.length ≤ F → branchTail lang input F (ps ++ qs) = some (b, qs)

theorem ItemsReads.nil (lang : Nat) (input : Str) (p : Nat × Nat) (i : Nat) (rest : Str) :
    ItemsReads lang input p i [] rest id := by
  intro lp clp m
  exact ⟨lp, clp, m, [], [], Lexes.nil _ _ _ _, fun _ => rfl, .inl ⟨rfl, rfl⟩, fun qs f ns r _ h => h⟩

theorem ItemsReads.cons {lang : Nat} {input : Str} {p : Nat × Nat} {i : Nat} {t u rest : Str} {n : Node} {add : Nodes → Nodes}
    (h1 : ItemReads lang input p i t (u ++ rest) n) (h2 : ItemsReads lang input (advance p t) (i + t.length) u rest add) :
    ItemsReads lang input p i (t ++ u) rest (fun ns => .cons n (add ns)) := by
  intro lp clp m
  obtain ⟨lp1, clp1, m1, ts1, ps1, a1, a2, a3, a4⟩ := h1 lp clp m
  obtain ⟨lp2, clp2, m2, ts2, ps2, b1, b2, b3, b4⟩ := h2 lp1 clp1 m1
  refine ⟨lp2, clp2, m2, ts1 ++ ts2, ps1 ++ ps2, a1.trans b1, ?_, ?_, ?_⟩
  · intro more
    rw [List.append_assoc, a2, b2, List.append_assoc]
  · obtain ⟨t0, r0, rfl, h⟩ := a3
    exact .inr ⟨t0, r0 ++ ps2, rfl, h⟩
  · intro qs f ns r hr hs
    have hb := b4 qs f ns r hr hs
    have ha := a4 (ps2 ++ qs) (f + ps2.length) (add ns) r ?_ hb
    · rw [List.append_assoc, List.length_append]
      rw [show f + (ps1.length + ps2.length) = f + ps2.length + ps1.length by omega]
      exact ha
    · intro he
      rw [List.append_eq_nil_iff] at he
      obtain ⟨rfl, rfl⟩ := he
      rcases b3 with ⟨rfl, _⟩ | ⟨t0, r0, rfl, h⟩
      · exact hr rfl
      · exfalso
        -- a token needs a character
        have h1 := b1
        unfold Lexes at h1
        rw [List.append_nil, lexR_nil, lexR_nil] at h1
        simp at h1
        subst h1
        have := b2 []
        simp [group] at this

theorem Lexes.def_end {st st' d : St} {p : Nat × Nat} {i : Nat} {t rest : Str} {ts : List Tok} (h : Lexes st p i t rest st' ts)
    (h1 : st' = d ∨ rest = []) : Lexes st p i t rest d ts := by
  rcases h1 with rfl | rfl
  · exact h
  · exact h.to_end

/-- A single token which is copied. -/
theorem reads_copied {lang : Nat} {input : Str} {p : Nat × Nat} {i : Nat} {t rest : Str} {ty : TT} (hc : copied ty = true)
    (h : ∀ lp clp m, Lexes ⟨.default, [], lp, clp, m⟩ p i t rest ⟨.default, [], lp, clp, m⟩ [tk ty .default t p i]) :
    ItemReads lang input p i t rest (.code p.1 t) := by
  intro lp clp m
  refine ⟨lp, clp, m, _, wrap [tk ty .default t p i], h lp clp m, group_wrap (by simp [tk]), ⟨_, _, rfl, rfl⟩, ?_⟩
  intro qs f ns r _ hs
  exact textStar_copied hc hs

/-- A directive. -/
theorem reads_dir {lang : Nat} {input : Str} {p : Nat × Nat} {i : Nat} {t rest : Str} {n : Node}
    (h : ∀ lp clp m, ∃ lp' clp' m' t0 ts ps, Lexes ⟨.default, [], lp, clp, m⟩ p i t rest ⟨.default, [], lp', clp', m'⟩ (t0 :: ts) ∧
      t0.chan = .default ∧ t0.line = p.1 ∧ startsDirective t0.ty = true ∧ (∀ more, group [] (ts ++ more) = ps ++ group [] more) ∧
      ∀ qs, (rest = [] → nextTy qs = .EOF) → directive lang input ⟨t0, []⟩ (ps ++ qs) = some (n, qs)) :
    ItemReads lang input p i t rest n := by
  intro lp clp m
  obtain ⟨lp', clp', m', t0, ts, ps, h1, h2, h3, h4, h5, h6⟩ := h lp clp m
  refine ⟨lp', clp', m', t0 :: ts, ⟨t0, []⟩ :: ps, h1, ?_, ⟨_, _, rfl, h3⟩, ?_⟩
  · intro more
    rw [List.cons_append, group, if_pos h2, h5]; rfl
  · intro qs f ns r hr hs
    exact textStar_dir (t := ⟨t0, []⟩) (by simp) h4 (h6 qs hr) hs

/-! ## the directives -/

theorem reads_undefineall {lang : Nat} {input : Str} {p : Nat × Nat} {i : Nat} {ws eol rest : Str} (hl : 6 ≤ lang)
    (hw : ws.all blank = true) (he : isEol eol = true) :
    ItemReads lang input p i (c! "`undefineall" ++ ws ++ eol) rest .undefineall := by
  refine reads_dir fun lp clp m => ⟨lp, clp, m, tk .UNDEFINEALL .default (c! "undefineall" ++ (ws ++ eol)) (p.1, p.2 + 1) (i + 1), [], [], ?_, rfl, rfl, rfl, fun _ => rfl, ?_⟩
  · rw [List.append_assoc]
    exact lex_simple (j := 11) (d := (c! "undefineall", WS_ENDING_NEW_LINE)) rfl rfl rfl (fun _ _ => rfl) hw he rest p i
  · intro qs _
    simp [directive, tk, hl]

theorem reads_simple {lang : Nat} {input : Str} {p : Nat × Nat} {i : Nat} {k ws eol rest : Str} (hk : k ∈ Spec.Pp.simples)
    (hw : ws.all blank = true) (he : isEol eol = true) :
    ItemReads lang input p i ('`' :: k ++ ws ++ eol) rest .nop := by
  have e : '`' :: k ++ ws ++ eol = '`' :: (k ++ (ws ++ eol)) := by simp
  rw [e]
  simp only [Spec.Pp.simples, List.mem_cons, List.not_mem_nil, or_false] at hk
  rcases hk with rfl | rfl | rfl | rfl
  · exact reads_dir fun lp clp m => ⟨lp, clp, m, tk .RESETALL .default _ (p.1, p.2 + 1) (i + 1), [], [],
      lex_simple (j := 12) (d := (c! "resetall", WS_ENDING_NEW_LINE)) rfl rfl rfl (fun _ _ => rfl) hw he rest p i, rfl, rfl, rfl, fun _ => rfl, fun _ _ => rfl⟩
  · exact reads_dir fun lp clp m => ⟨lp, clp, m, tk .CELLDEFINE .default _ (p.1, p.2 + 1) (i + 1), [], [],
      lex_simple (j := 13) (d := (c! "celldefine", WS_ENDING_NEW_LINE)) rfl rfl rfl (fun _ _ => rfl) hw he rest p i, rfl, rfl, rfl, fun _ => rfl, fun _ _ => rfl⟩
  · exact reads_dir fun lp clp m => ⟨lp, clp, m, tk .ENDCELLDEFINE .default _ (p.1, p.2 + 1) (i + 1), [], [],
      lex_simple (j := 14) (d := (c! "endcelldefine", WS_ENDING_NEW_LINE)) rfl rfl rfl (fun _ _ => rfl) hw he rest p i, rfl, rfl, rfl, fun _ => rfl, fun _ _ => rfl⟩
  · exact reads_dir fun lp clp m => ⟨lp, clp, m, tk .NOUNCONNECTED_DRIVE .default _ (p.1, p.2 + 1) (i + 1), [], [],
      lex_simple (j := 19) (d := (c! "nounconnected_drive", WS_ENDING_NEW_LINE)) rfl rfl rfl (fun _ _ => rfl) hw he rest p i, rfl, rfl, rfl, fun _ => rfl, fun _ _ => rfl⟩

theorem reads_undef {lang : Nat} {input : Str} {p : Nat × Nat} {i : Nat} {ws n sep rest : Str} (hw : blanks ws = true)
    (hn : isName n = true) (hs : isEol sep = true ∨ sep = [' '] ∨ sep = ['\t'] ∨ (sep = [] ∧ rest = [])) :
    ItemReads lang input p i (c! "`undef" ++ ws ++ n ++ sep) rest (.undef n) := by
  refine reads_dir fun lp clp m => ?_
  obtain ⟨st', e, h1, h2, h3, h4, h5⟩ := lex_undef (stk := []) (lp := lp) (clp := clp) (m := m) (rest := rest) hw hn hs p i
  refine ⟨lp, clp, m, _, _, wrap _, h5.def_end h1, rfl, rfl, rfl, group_wrap ?_, ?_⟩
  · intro t ht
    rw [List.mem_cons] at ht
    rcases ht with rfl | ht
    · rfl
    · exact (h2 t ht).2
  · intro qs hq
    rw [wrap_cons, List.cons_append]
    simp only [directive, tk, Option.bind_eq_bind, expect, if_true, Option.bind_some]
    match e, h2, h3, h4 with
    | [], _, h3, _ => simp [wrap, hq (h3 rfl)]
    | [x], h2, _, _ =>
      have := (h2 x (by simp)).1
      rcases this with h | h <;> simp [wrap, nextTy, h]
    | _ :: _ :: _, _, _, h4 => simp at h4

theorem reads_incl {lang : Nat} {input : Str} {p : Nat × Nat} {i : Nat} {ws ws' eol rest : Str} {f : List StrPiece} (hw : blanks ws = true)
    (hf : strOk f = true) (hw' : ws'.all blank = true) (he : Spec.Pp.eolOk eol rest = true) :
    ItemReads lang input p i (c! "`include" ++ ws ++ strText f ++ ws' ++ eol) rest (.incl p.1 (p.2 + 1) (.str (strText f))) := by
  refine reads_dir fun lp clp m => ?_
  obtain ⟨st', h1, h5⟩ := lex_incl (stk := []) (lp := lp) (clp := clp) (m := m) (rest := rest) hw hf hw' he p i
  refine ⟨lp, clp, m, _, _, wrap _, h5.def_end h1, rfl, rfl, rfl, group_wrap (by simp [tk]), ?_⟩
  intro qs _
  simp [directive, tk, wrap]

theorem reads_call {lang : Nat} {input : Str} {p : Nat × Nat} {i : Nat} {n rest : Str} (hn : isName n = true) (hk : n ∉ keywords)
    (hr : Spec.Pp.callEnd rest = true) : ItemReads lang input p i ('`' :: n) rest (.call ⟨p.1, p.2 + 1, n, none⟩) := by
  refine reads_dir fun lp clp m => ⟨lp, clp, m, _, [], [], lex_call hn hk hr p i, rfl, rfl, rfl, fun _ => rfl, ?_⟩
  intro qs _
  rfl

theorem argList_code (l : List Tok) (hl : ∀ t ∈ l, t.ty = .CODE) (qs : List PTok) : ∀ cur,
    argList (wrap l ++ qs) cur = argList qs (cur ++ wrap l) := by
  induction l with
  | nil => intro cur; simp [wrap]
  | cons t l ih =>
    intro cur
    have ht := hl t (by simp)
    rw [wrap_cons, List.cons_append, argList, if_neg (by simp [ht]), if_neg (by simp [ht]), if_pos (by simp [ht, copied]),
      ih (fun u hu => hl u (by simp [hu]))]
    simp

theorem argText_nil {a : List ArgPiece} (ha : a.all ArgPiece.ok = true) : argText a = [] ↔ a = [] := by
  cases a with
  | nil => simp [argText]
  | cons x a =>
    simp only [List.all_cons, Bool.and_eq_true] at ha
    have : x.text ≠ [] := by
      cases x with
      | plain s => simp [ArgPiece.ok] at ha; exact ha.1.1.1
      | str l => simp [ArgPiece.text, strText]
      | br c => simp [ArgPiece.text]
    simp [argText, this]

theorem valueOf_arg {a : List ArgPiece} (ha : a.all ArgPiece.ok = true) (p : Nat × Nat) (i : Nat) :
    valueOf (wrap (plainToks p i (a.map fun x => (.CODE, x.text)))) = if argText a = [] then [] else [.value (argText a)] := by
  by_cases h : a = []
  · subst h; simp [argText, plainToks, wrap, valueOf]
  · rw [if_neg (by rw [argText_nil ha]; exact h), valueOf, if_neg, raw_wrap, plainToks_texts, arg_texts]
    cases a with
    | nil => exact absurd rfl h
    | cons x a => simp [plainToks, wrap]

theorem argList_args (as : List (List ArgPiece)) (hne : as ≠ []) (hok : as.all argOk = true) (qs : List PTok) :
    ∀ (p : Nat × Nat) (i : Nat), ∃ e, e.tok.stop = i + (commas (as.map argText)).length + 1 ∧
      argList (wrap (argsToks p i as) ++ qs) [] = some (argToks as, e, qs) := by
  induction as with
  | nil => exact absurd rfl hne
  | cons a as ih =>
    intro p i
    simp only [List.all_cons, Bool.and_eq_true, argOk] at hok
    have hty := plainToks_ty p i (a.map fun x => (TT.CODE, x.text)) .CODE (by simp)
    cases as with
    | nil =>
      refine ⟨⟨tk .RP .default [')'] (advance p (argText a)) (i + (argText a).length), []⟩, ?_, ?_⟩
      · simp [tk, commas]
      · rw [argsToks, wrap_append, List.append_assoc, argList_code _ hty, wrap_cons, List.cons_append, argList,
          if_neg (by simp [tk]), if_pos (by rfl), List.nil_append, valueOf_arg hok.1.1.1]
        rfl
    | cons a' as =>
      obtain ⟨e, h1, h2⟩ := ih (by simp) (by simpa [argOk] using hok.2) (advance (advance p (argText a)) [',']) (i + (argText a).length + 1)
      refine ⟨e, ?_, ?_⟩
      · rw [h1]; simp [commas]; omega
      · rw [argsToks, wrap_append, List.append_assoc, argList_code _ hty, wrap_cons, List.cons_append, argList,
          if_pos (by rfl), h2, List.nil_append, valueOf_arg hok.1.1.1]
        · rfl
        · simp

theorem callName_eq {n r : Str} (hn : isName n = true) (hr : NoHead idNext r) : callName (n ++ r) = n := by
  cases n with
  | nil => simp [isName] at hn
  | cons c n =>
    simp only [isName, Bool.and_eq_true] at hn
    rw [List.cons_append, callName]
    congr 1
    have hp : (fun c : Char => c.isAlphanum || decide (c = '_')) = idNext := by
      funext c; simp [idNext]; congr
    rw [hp, List.takeWhile_append_of_pos (by simpa using hn.2)]
    cases r with
    | nil => simp
    | cons d r => rw [List.takeWhile_cons_of_neg (by simp [NoHead_cons.1 hr])]; simp

theorem argsToks_chan (as : List (List ArgPiece)) : ∀ (p : Nat × Nat) (i : Nat), ∀ t ∈ argsToks p i as, t.chan = .default := by
  induction as with
  | nil => intro p i t ht; simp [argsToks] at ht; subst ht; rfl
  | cons a as ih =>
    intro p i t ht
    cases as with
    | nil =>
      rw [argsToks, List.mem_append, List.mem_singleton] at ht
      rcases ht with ht | rfl
      · exact plainToks_chan _ _ _ t ht
      · rfl
    | cons a' as =>
      rw [argsToks, List.mem_append, List.mem_cons] at ht
      · rcases ht with ht | rfl | ht
        · exact plainToks_chan _ _ _ t ht
        · rfl
        · exact ih _ _ t ht
      · simp

theorem reads_callArgs {lang : Nat} {input : Str} {p : Nat × Nat} {i : Nat} {n ws rest : Str} {as : List (List ArgPiece)}
    (hn : isName n = true) (hk : n ∉ keywords) (hw : ws.all blank = true) (hne : as ≠ []) (hok : as.all argOk = true)
    (hin : input.drop i = ('`' :: n ++ ws ++ '(' :: commas (as.map argText) ++ [')']) ++ rest) :
    ItemReads lang input p i ('`' :: n ++ ws ++ '(' :: commas (as.map argText) ++ [')']) rest
      (.call ⟨p.1, p.2 + 1, n, some (argToks as, ws ++ '(' :: commas (as.map argText) ++ [')'])⟩) := by
  have e : '`' :: n ++ ws ++ '(' :: commas (as.map argText) ++ [')'] = ('`' :: (n ++ ws ++ ['('])) ++ (commas (as.map argText) ++ [')']) := by simp
  rw [e] at hin ⊢
  refine reads_dir fun lp clp m => ?_
  refine ⟨_, _, _, _, _, wrap _, lex_callArgs hn hk hw hne hok rest p i, rfl, rfl, rfl, group_wrap (argsToks_chan _ _ _), ?_⟩
  intro qs _
  obtain ⟨x, hx1, hx2⟩ := argList_args as hne hok qs (advance p ('`' :: (n ++ ws ++ ['(']))) (i + ('`' :: (n ++ ws ++ ['('])).length)
  have hcn : callName (n ++ ws ++ ['(']) = n := by
    rw [List.append_assoc]
    exact callName_eq hn (blank_noId hw (NoHead_cons.2 (by decide)))
  simp only [directive, tk, macroCall, hx2, Option.bind_eq_bind, Option.bind_some, Option.pure_def, Option.map_some, hcn]
  have hdrop : input.drop (i + 1 + n.length) = (ws ++ '(' :: commas (as.map argText) ++ [')']) ++ rest := by
    rw [Nat.add_assoc, ← List.drop_drop, hin]
    rw [show 1 + n.length = n.length + 1 by omega]
    simp
  rw [hdrop, hx1]
  have hlen : i + ('`' :: (n ++ ws ++ ['('])).length + (commas (as.map argText)).length + 1 - (i + 1 + n.length) =
      (ws ++ '(' :: commas (as.map argText) ++ [')']).length := by
    simp; omega
  rw [hlen, List.take_left' rfl]

end Verif.Pp
