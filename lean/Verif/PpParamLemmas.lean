import Verif.PpDefLemmas
/-!
# The parameter list of a macro definition
-/
namespace Verif.Pp
open Verif.Antlr Verif.Antlr.Re
open Verif.Spec.Pp (idFirst idNext blank blanks isEol isName noHead keywords StrPiece strText strOk
  ArgPiece argSpecial argText argAlt argOk balanced noComment commas BodyPiece bodyText bodyAlt bodyOk noLine Formal)

/-- Tokens of the default channel without hidden tokens in front of them. -/
def wrap (ts : List Tok) : List PTok := ts.map fun t => ⟨t, []⟩

theorem wrap_append (a b : List Tok) : wrap (a ++ b) = wrap a ++ wrap b := by simp [wrap]
theorem wrap_cons (a : Tok) (b : List Tok) : wrap (a :: b) = ⟨a, []⟩ :: wrap b := rfl
theorem wrap_length (a : List Tok) : (wrap a).length = a.length := by simp [wrap]

theorem group_wrap {ts : List Tok} (h : ∀ t ∈ ts, t.chan = .default) (more : List Tok) :
    group [] (ts ++ more) = wrap ts ++ group [] more := by
  induction ts with
  | nil => rfl
  | cons t ts ih =>
    rw [List.cons_append, group, if_pos (h t (by simp)), ih (fun u hu => h u (by simp [hu]))]
    rfl

theorem many_stop {ty : TT} {qs : List PTok} (h : nextTy qs ≠ ty) : many ty qs = ([], qs) := by
  cases qs with
  | nil => rfl
  | cons t r => rw [many, if_neg (show ¬ t.tok.ty = ty from h)]

theorem many_append {ty : TT} {ps qs : List PTok} (h : ∀ t ∈ ps, t.tok.ty = ty) (hq : nextTy qs ≠ ty) :
    many ty (ps ++ qs) = (ps, qs) := by
  induction ps with
  | nil => exact many_stop hq
  | cons t r ih =>
    rw [List.cons_append, many, if_pos (h t (by simp)), ih (fun u hu => h u (by simp [hu]))]

theorem expect_cons {ty : TT} {t : PTok} {r : List PTok} (h : t.tok.ty = ty) : expect ty (t :: r) = some (t, r) := by
  rw [expect, if_pos h]

theorem expect_none {ty : TT} {r : List PTok} (h : nextTy r ≠ ty) : expect ty r = none := by
  cases r with
  | nil => rfl
  | cons t r => rw [expect, if_neg (show ¬ t.tok.ty = ty from h)]

theorem plainToks_chan (p : Nat × Nat) (i : Nat) (l : List (TT × Str)) : ∀ t ∈ plainToks p i l, t.chan = .default := by
  induction l generalizing p i with
  | nil => intro t ht; simp [plainToks] at ht
  | cons x l ih =>
    obtain ⟨ty, s⟩ := x
    intro t ht
    rw [plainToks_cons] at ht
    rcases List.mem_append.1 ht with h | h
    · simp at h; subst h; rfl
    · exact ih _ _ t h

theorem plainToks_ty (p : Nat × Nat) (i : Nat) (l : List (TT × Str)) (ty : TT) (h : ∀ x ∈ l, x.1 = ty) :
    ∀ t ∈ plainToks p i l, t.ty = ty := by
  induction l generalizing p i with
  | nil => intro t ht; simp [plainToks] at ht
  | cons x l ih =>
    obtain ⟨ty', s⟩ := x
    intro t ht
    rw [plainToks_cons] at ht
    rcases List.mem_append.1 ht with h' | h'
    · simp at h'; subst h'; exact h (ty', s) (by simp)
    · exact ih _ _ (fun x hx => h x (by simp [hx])) t h'

theorem plainToks_texts (p : Nat × Nat) (i : Nat) (l : List (TT × Str)) :
    texts (wrap (plainToks p i l)) = l.flatMap Prod.snd := by
  induction l generalizing p i with
  | nil => rfl
  | cons x l ih =>
    obtain ⟨ty', s⟩ := x
    rw [plainToks_cons, wrap_append, texts, List.flatMap_append]
    have := ih (advance p s) (i + s.length)
    rw [texts] at this
    rw [this]
    simp [wrap, tk]

theorem raw_wrap (ts : List Tok) : rawText (wrap ts) = texts (wrap ts) := by
  cases ts with
  | nil => rfl
  | cons t r =>
    rw [wrap_cons, rawText, texts, List.flatMap_cons]
    congr 1
    rw [wrap, List.flatMap_map, List.flatMap_map]
    rfl

theorem arg_texts (l : List ArgPiece) : (l.map fun x => (TT.CODE, x.text)).flatMap Prod.snd = argText l := by
  rw [argText, List.flatMap_map]

theorem name_noComment {n : Str} (hn : isName n = true) (rest : Str) : NoHead blank (n ++ rest) := name_blank hn rest

/-- What the state is behind a formal argument. -/
def afterFormal (stk : List Mode) (clp : Bool) (m : ExprMeta) (f : Formal) : St :=
  if f.dflt.isSome then ⟨.expr, .define :: .default :: stk, true, clp, metaReset true false (some .defineBody)⟩
  else ⟨.define, .default :: stk, true, clp, m⟩

theorem lex_formal {lang : Nat} {stk : List Mode} {clp : Bool} {m : ExprMeta} (f : Formal) (hok : f.ok lang = true) {rest : Str}
    (hr : (∃ u, rest = ',' :: u) ∨ ∃ u, rest = ')' :: u) (p : Nat × Nat) (i : Nat) :
    ∃ ts, (∀ t ∈ ts, t.chan = .default) ∧ Lexes ⟨.define, .default :: stk, true, clp, m⟩ p i f.text rest (afterFormal stk clp m f) ts ∧
      ts ≠ [] ∧ nextTy (wrap ts) = .ID ∧
      ∀ qs, nextTy qs = .COMMA ∨ nextTy qs = .RP → param lang (wrap ts ++ qs) = some (f.param, qs) := by
  obtain ⟨pre, name, post, dflt⟩ := f
  have hok0 := hok
  simp only [Formal.ok, Bool.and_eq_true] at hok
  obtain ⟨⟨⟨hpre, hn⟩, hpost⟩, hd⟩ := hok
  have hhead : ∀ q : Char → Bool, q ',' = false → q ')' = false → NoHead q rest := by
    intro q h1 h2
    rcases hr with ⟨u, rfl⟩ | ⟨u, rfl⟩
    · exact NoHead_cons.2 h1
    · exact NoHead_cons.2 h2
  have hvar : ∀ (t : Tok) (qs : List PTok), t.ty = .ID → nextTy qs ≠ .COMMENT → varId (⟨t, []⟩ :: qs) = some (t.text, qs) := by
    intro t qs ht hq
    have h0 : many .COMMENT (⟨t, []⟩ :: qs) = ([], ⟨t, []⟩ :: qs) := many_stop (by rw [nextTy, ht]; decide)
    simp only [varId, h0, expect_cons (t := ⟨t, []⟩) ht, many_stop hq, Option.bind_eq_bind, Option.bind_some, Option.pure_def]
    simp [texts]
  cases dflt with
  | none =>
    have h3 := lex_defWs (stk := .default :: stk) (clp := clp) (m := m) hpost (hhead blank (by decide) (by decide)) (advance p (pre ++ name)) (i + (pre ++ name).length)
    have h2 := lex_defId (stk := .default :: stk) (lp := true) (clp := clp) (m := m) hn (blank_noId hpost (hhead idNext (by decide) (by decide))) (advance p pre) (i + pre.length)
    have h1 := lex_defWs (stk := .default :: stk) (clp := clp) (m := m) hpre (name_blank hn (post ++ rest)) p i
    have e : Formal.text ⟨pre, name, post, none⟩ = pre ++ name ++ post := by simp [Formal.text]
    rw [e]
    refine ⟨_, ?_, (h1.trans h2).trans h3, ?_, ?_, ?_⟩
    rotate_left
    · simp
    · rfl
    · intro qs hq
      simp only [List.nil_append, List.append_nil, wrap_cons, List.cons_append]
      have hv := hvar (tk .ID .default name (advance p pre) (i + pre.length)) qs rfl (by rcases hq with h | h <;> rw [h] <;> decide)
      simp only [param, wrap, List.map_nil, List.nil_append, hv, Option.bind_eq_bind, Option.bind_some, Option.pure_def,
        expect_none (ty := .EQUAL) (r := qs) (by rcases hq with h | h <;> rw [h] <;> decide)]
      split <;> rfl
    · intro t ht
      simp at ht
      subst ht; rfl
  | some d =>
    simp only [Bool.and_eq_true, decide_eq_true_eq, argOk] at hd
    obtain ⟨⟨⟨hd1, hd2⟩, hd3⟩, hlang⟩ := hd
    have hargs : NoHead (fun c => !argSpecial c) rest := hhead _ (by decide) (by decide)
    have h5 := lex_arg (stk := .define :: .default :: stk) (lp := true) (clp := clp) (re := false) (ex := true) (nx := some .defineBody)
      d hd1 hd2 hargs 0 0 0 (advance p (pre ++ name ++ post ++ ['='])) (i + (pre ++ name ++ post ++ ['=']).length) hd3
    have h4 := lex_defSet (st := ⟨.define, .default :: stk, true, clp, m⟩) (ty := .EQUAL)
      (st' := ⟨.expr, .define :: .default :: stk, true, clp, metaReset true false (some .defineBody)⟩) rfl (c := '=') (i0 := 6) rfl (by decide) rfl rfl rfl (by decide)
      (by decide) (by decide) (argText d ++ rest) (advance p (pre ++ name ++ post)) (i + (pre ++ name ++ post).length)
    have h3 := lex_defWs (stk := .default :: stk) (clp := clp) (m := m) (rest := ['='] ++ (argText d ++ rest)) hpost
      (NoHead_cons.2 (by decide)) (advance p (pre ++ name)) (i + (pre ++ name).length)
    have h2 := lex_defId (stk := .default :: stk) (lp := true) (clp := clp) (m := m) (rest := post ++ (['='] ++ (argText d ++ rest))) hn
      (blank_noId hpost (NoHead_cons.2 (by decide))) (advance p pre) (i + pre.length)
    have h1 := lex_defWs (stk := .default :: stk) (clp := clp) (m := m) hpre
      (name_blank hn (post ++ (['='] ++ (argText d ++ rest)))) p i
    have e : Formal.text ⟨pre, name, post, some d⟩ = pre ++ name ++ post ++ ['='] ++ argText d := by simp [Formal.text]
    rw [e]
    refine ⟨_, ?_, (((h1.trans h2).trans h3).trans h4).trans h5, ?_, ?_, ?_⟩
    rotate_left
    · simp
    · rfl
    · intro qs hq
      simp only [List.nil_append, List.append_nil, List.singleton_append, List.cons_append, wrap_cons]
      generalize hpt : plainToks _ _ _ = pt
      have hty : ∀ t ∈ wrap pt, t.tok.ty = .CODE := by
        intro t ht
        simp only [wrap, List.mem_map] at ht
        obtain ⟨u, hu, rfl⟩ := ht
        rw [← hpt] at hu
        exact plainToks_ty _ _ _ _ (by simp) u hu
      have htx : texts (wrap pt) = argText d := by rw [← hpt, plainToks_texts, arg_texts]
      have hv := hvar (tk .ID .default name (advance p pre) (i + pre.length))
        (⟨tk .EQUAL .default ['='] (advance p (pre ++ name ++ post)) (i + (pre ++ name ++ post).length), []⟩ :: (wrap pt ++ qs)) rfl
        (by simp [nextTy, tk])
      have hm : many .CODE (wrap pt ++ qs) = (wrap pt, qs) := many_append hty (by rcases hq with h | h <;> rw [h] <;> decide)
      simp only [param, hv, Option.bind_eq_bind, Option.bind_some, Option.pure_def, if_pos hlang,
        expect_cons (ty := .EQUAL) (t := ⟨tk .EQUAL .default ['='] (advance p (pre ++ name ++ post)) (i + (pre ++ name ++ post).length), []⟩) rfl, hm, htx]
      rfl
    · intro t ht
      simp only [List.nil_append, List.append_nil, List.mem_append, List.mem_singleton] at ht
      rcases ht with (rfl | rfl) | ht
      · rfl
      · rfl
      · exact plainToks_chan _ _ _ t ht

/-- The last formal argument has a default value. -/
def lastDflt (fs : List Formal) : Bool := (fs.getLast?.bind (·.dflt)).isSome

theorem params_last {lang : Nat} {fuel : Nat} {a b : List PTok} {x : Param} (h : param lang a = some (x, b))
    (hb : nextTy b ≠ .COMMA) : params lang (fuel + 1) a = some ([x], b) := by
  simp only [params, h, Option.bind_eq_bind, Option.bind_some, expect_none hb]; rfl

theorem params_cons {lang : Nat} {fuel : Nat} {a b c : List PTok} {t : PTok} {x : Param} {xs : List Param}
    (h : param lang a = some (x, t :: b)) (ht : t.tok.ty = .COMMA) (hr : params lang fuel b = some (xs, c)) :
    params lang (fuel + 1) a = some (x :: xs, c) := by
  simp only [params, h, Option.bind_eq_bind, Option.bind_some, expect_cons ht, hr]; rfl

theorem lex_formals {lang : Nat} {stk : List Mode} {clp : Bool} (fs : List Formal) (hne : fs ≠ [])
    (hok : fs.all (Formal.ok lang) = true) {ws rest : Str} (hw : ws.all blank = true) (hr : NoHead blank rest) :
    ∀ (p : Nat × Nat) (i : Nat) (m : ExprMeta), ∃ ts m' rp, (∀ t ∈ ts, t.chan = .default) ∧ rp.chan = .default ∧ rp.ty = .RP ∧
      Lexes ⟨.define, .default :: stk, true, clp, m⟩ p i (commas (fs.map Formal.text) ++ ')' :: (if lastDflt fs then [] else ws))
        ((if lastDflt fs then ws else []) ++ rest) ⟨.defineBody, .default :: stk, true, clp, m'⟩ (ts ++ [rp]) ∧
      nextTy (wrap ts) = .ID ∧
      ∀ fuel qs, nextTy qs = .RP → fs.length ≤ fuel → params lang fuel (wrap ts ++ qs) = some (fs.map Formal.param, qs) := by
  induction fs with
  | nil => exact absurd rfl hne
  | cons f fs ih =>
    intro p i m
    simp only [List.all_cons, Bool.and_eq_true] at hok
    cases fs with
    | nil =>
      by_cases hd : f.dflt.isSome
      · have hl : lastDflt [f] = true := by simp [lastDflt, hd]
        obtain ⟨ts, h1, h2, h3, h4, h5⟩ := lex_formal (stk := stk) (clp := clp) (m := m) f hok.1 (rest := [')'] ++ (ws ++ rest)) (.inr ⟨_, rfl⟩) p i
        have hst : afterFormal stk clp m f = ⟨.expr, .define :: .default :: stk, true, clp, metaReset true false (some .defineBody)⟩ := by
          rw [afterFormal, if_pos hd]
        rw [hst] at h2
        rw [hl]
        simp only [List.map_cons, List.map_nil, commas, if_true]
        refine ⟨ts, _, _, h1, ?_, ?_, h2.trans (lex_argBr rfl (i0 := 4) rfl rfl rfl rfl (by decide) (ws ++ rest) _ _), h4, ?_⟩
        rotate_left 2
        · intro fuel qs hq hf
          obtain ⟨fuel, rfl⟩ := Nat.exists_eq_succ_of_ne_zero (show fuel ≠ 0 by simp at hf; omega)
          exact params_last (h5 qs (.inr hq)) (by rw [hq]; decide)
        · rfl
        · rfl
      · have hl : lastDflt [f] = false := by simp [lastDflt, hd] at hd ⊢
        obtain ⟨ts, h1, h2, h3, h4, h5⟩ := lex_formal (stk := stk) (clp := clp) (m := m) f hok.1 (rest := (')' :: ws) ++ rest) (.inr ⟨_, rfl⟩) p i
        have hst : afterFormal stk clp m f = ⟨.define, .default :: stk, true, clp, m⟩ := by
          rw [afterFormal, if_neg hd]
        rw [hst] at h2
        rw [hl]
        simp only [List.map_cons, List.map_nil, commas, Bool.false_eq_true, if_false]
        refine ⟨ts, _, _, h1, ?_, ?_, h2.trans (lex_defRp hw hr _ _), h4, ?_⟩
        rotate_left 2
        · intro fuel qs hq hf
          obtain ⟨fuel, rfl⟩ := Nat.exists_eq_succ_of_ne_zero (show fuel ≠ 0 by simp at hf; omega)
          exact params_last (h5 qs (.inr hq)) (by rw [hq]; decide)
        · rfl
        · rfl
    | cons f' fs =>
      have hl : lastDflt (f :: f' :: fs) = lastDflt (f' :: fs) := by simp [lastDflt, List.getLast?_cons_cons]
      rw [hl]
      generalize hT : commas ((f' :: fs).map Formal.text) ++ ')' :: (if lastDflt (f' :: fs) = true then [] else ws) = T at ih
      generalize hR : (if lastDflt (f' :: fs) = true then ws else []) ++ rest = R at ih
      obtain ⟨ts, h1, h2, h3, h4, h5⟩ := lex_formal (stk := stk) (clp := clp) (m := m) f hok.1 (rest := [','] ++ (T ++ R)) (.inl ⟨_, rfl⟩) p i
      obtain ⟨m1, hcomma⟩ : ∃ m1, ∀ p i, Lexes (afterFormal stk clp m f) p i [','] (T ++ R)
          ⟨.define, .default :: stk, true, clp, m1⟩ [tk .COMMA .default [','] p i] := by
        by_cases hd : f.dflt.isSome
        · refine ⟨metaReset true false (some .defineBody), fun p i => ?_⟩
          rw [afterFormal, if_pos hd]
          exact lex_argBr rfl (i0 := 9) rfl rfl rfl rfl (by decide) _ _ _
        · refine ⟨m, fun p i => ?_⟩
          rw [afterFormal, if_neg hd]
          exact lex_defSet rfl (i0 := 5) rfl (by decide) rfl rfl rfl (by decide) (by decide) (by decide) _ _ _
      have h6 := h2.trans (hcomma _ _)
      obtain ⟨us, m', rp, g1, g2, g3, g4, g5, g6⟩ := ih (by simp) hok.2 (advance p (f.text ++ [','])) (i + (f.text ++ [',']).length) m1
      have h7 := h6.trans g4
      have e : commas ((f :: f' :: fs).map Formal.text) ++ ')' :: (if lastDflt (f' :: fs) = true then [] else ws) =
          f.text ++ [','] ++ T := by
        rw [← hT]; simp [commas]
      rw [e]
      rw [← List.append_assoc] at h7
      refine ⟨_, _, _, ?_, g2, g3, h7, ?_, ?_⟩
      rotate_left
      · cases ts with
        | nil => exact absurd rfl h3
        | cons t ts => exact h4
      · intro fuel qs hq hf
        obtain ⟨fuel, rfl⟩ := Nat.exists_eq_succ_of_ne_zero (show fuel ≠ 0 by simp at hf; omega)
        have hg := g6 fuel qs hq (by simp at hf ⊢; omega)
        refine params_cons (t := ⟨tk .COMMA .default [','] (advance p f.text) (i + f.text.length), []⟩) (b := wrap us ++ qs) ?_ ?_ hg
        · have := h5 (wrap (tk .COMMA .default [','] (advance p f.text) (i + f.text.length) :: us) ++ qs) (.inl rfl)
          simpa [wrap_append, wrap_cons] using this
        · rfl
      · intro t ht
        simp only [List.mem_append, List.mem_singleton] at ht
        rcases ht with (ht | rfl) | ht
        · exact h1 t ht
        · rfl
        · exact g1 t ht

end Verif.Pp
