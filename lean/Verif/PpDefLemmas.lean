import Verif.PpArgLemmas
/-!
# Tokens of macro definitions
-/
namespace Verif.Pp
open Verif.Antlr Verif.Antlr.Re
open Verif.Spec.Pp (idFirst idNext blank blanks isEol isName noHead keywords StrPiece strText strOk
  ArgPiece argSpecial argText argAlt argOk balanced noComment commas BodyPiece bodyText bodyAlt bodyOk noLine Formal)

/-! ## in front of the macro text -/

/-- The rule of DEFINE_MODE for a text which starts with this character (not a comment). -/
def defIdx (c : Char) : Nat :=
  if c = '\\' then 2 else if c = '(' then 3 else if c = ')' then 4 else if c = ',' then 5 else if c = '=' then 6
  else if c = '\r' then 7 else if c = '\n' then 7 else if blank c then 8 else if idFirst c then 9 else 10

theorem dn_one {c : Char} (h : c ∉ ['`', '"', '\\', '\r', '\n']) (t : Str) :
    longest dnStep (syms (c :: t)) = some 1 := by
  have : dnStep.der (some c) = .eps := by
    rw [der_rep (r := dnStep) (l := ['`', '"', '\\', '\r', '\n', '"', '\\', '\\', '\r', '\n']) (d := 'a') rfl
      (by simp at h ⊢; tauto) (by decide)]
    rfl
  exact longest_step this (longest_eps t)

theorem dn_eol {c : Char} (h : c = '\r' ∨ c = '\n') (t : Str) : longest dnStep (syms (c :: t)) = none := by
  rcases h with rfl | rfl <;> exact (by rw [syms_cons, longest_dead rfl]; rfl)

theorem dn_le {c : Char} (h1 : c ≠ '`') (h2 : c ≠ '\\') {t : Str} {k : Nat} (h : longest dnStep (syms (c :: t)) = some k) : k ≤ 1 := by
  by_cases hc : c ∈ ['`', '"', '\\', '\r', '\n']
  · simp at hc
    have hd : longest dnStep (syms (c :: t)) = none := by
      rcases hc with rfl | rfl | rfl | rfl | rfl
      · exact absurd rfl h1
      · rw [syms_cons, longest_dead rfl]; rfl
      · exact absurd rfl h2
      · exact dn_eol (.inl rfl) t
      · exact dn_eol (.inr rfl) t
    rw [hd] at h; cases h
  · rw [dn_one hc] at h; cases h; exact Nat.le_refl 1

theorem def_no {c : Char} {t : Str} (hc : c ≠ '/') {j : Nat} {q : Rule} (hj : j ≠ defIdx c) (hj' : j ≠ 10)
    (hq : defineRules[j]? = some q) : longest q.re (syms (c :: t)) = none := by
  have hs : ∀ x, defIdx x = j → NoHead (· == x) (c :: t) := by
    intro x hx
    refine NoHead_cons.2 ?_
    simp
    rintro rfl
    exact hj hx.symm
  match j, hq with
  | 0, hq => cases hq; exact line_no (no_slash hc)
  | 1, hq => cases hq; exact comment_no (no_slash hc)
  | 2, hq => cases hq; exact seq_set_no (hs '\\' rfl)
  | 3, hq => cases hq; exact set1_no (hs '(' rfl)
  | 4, hq => cases hq; exact seq_set_no (hs ')' rfl)
  | 5, hq => cases hq; exact set1_no (hs ',' rfl)
  | 6, hq => cases hq; exact set1_no (hs '=' rfl)
  | 7, hq =>
    cases hq
    refine crlf_no (NoHead_cons.2 ?_)
    have h1 := NoHead_cons.1 (hs '\r' rfl)
    have h2 := NoHead_cons.1 (hs '\n' rfl)
    beta_reduce at h1 h2
    rw [h1, h2]; rfl
  | 8, hq =>
    cases hq
    refine ws_no (NoHead_cons.2 ?_)
    rw [← Bool.not_eq_true]
    intro hb
    have : c = ' ' ∨ c = '\t' := by simpa [blank] using hb
    rcases this with rfl | rfl <;> exact hj rfl
  | 9, hq =>
    cases hq
    refine id_no (NoHead_cons.2 ?_)
    rw [← Bool.not_eq_true]
    intro hb
    apply hj
    unfold defIdx
    have hne : ∀ d, idFirst d = false → c ≠ d := fun d hd => idFirst_ne hb hd
    rw [if_neg (hne _ (by decide)), if_neg (hne _ (by decide)), if_neg (hne _ (by decide)), if_neg (hne _ (by decide)),
      if_neg (hne _ (by decide)), if_neg (hne _ (by decide)), if_neg (hne _ (by decide)),
      if_neg (by rw [blank_false (idNext_of_first hb)]; decide), if_pos hb]
  | 10, hq => exact absurd rfl hj'
  | j + 11, hq => simp [defineRules] at hq

theorem pick_def {c : Char} {t : Str} (hc : c ≠ '/') (h1 : c ≠ '`') (h2 : c ≠ '\\') {i : Nat} {r : Rule} {n : Nat}
    (hi : i = defIdx c) (hi' : i ≠ 10) (hr : defineRules[i]? = some r) (hn : longest r.re (syms (c :: t)) = some n) (hpos : 1 ≤ n) :
    pick Rule.re defineRules (syms (c :: t)) = some (r, n) := by
  have hlt : i < 11 := by
    have := (List.getElem?_eq_some_iff.1 hr).1
    simpa [defineRules] using this
  refine pick_idx hr hn (fun j q k hj hq hk => ?_) (fun j q k hj hq hk => ?_)
  · rw [def_no hc (by omega) (by omega) hq] at hk; cases hk
  · by_cases h10 : j = 10
    · subst h10
      cases hq
      exact Nat.le_trans (dn_le h1 h2 hk) hpos
    · rw [def_no hc (by omega) h10 hq] at hk; cases hk

theorem defIdx_id {c : Char} (hb : idFirst c = true) : defIdx c = 9 := by
  unfold defIdx
  have hne : ∀ d, idFirst d = false → c ≠ d := fun d hd => idFirst_ne hb hd
  rw [if_neg (hne _ (by decide)), if_neg (hne _ (by decide)), if_neg (hne _ (by decide)), if_neg (hne _ (by decide)),
    if_neg (hne _ (by decide)), if_neg (hne _ (by decide)), if_neg (hne _ (by decide)),
    if_neg (by rw [blank_false (idNext_of_first hb)]; decide), if_pos hb]

/-- The name of a macro or of a formal argument. -/
theorem lex_defId {stk : List Mode} {lp clp : Bool} {m : ExprMeta} {n rest : Str} (hn : isName n = true)
    (hr : NoHead idNext rest) (p : Nat × Nat) (i : Nat) :
    Lexes ⟨.define, stk, lp, clp, m⟩ p i n rest ⟨.define, stk, lp, clp, m⟩ [tk .ID .default n p i] := by
  have hl := longest_id hn hr
  match n, hn, hl with
  | c :: n, hn, hl =>
    have hc : idFirst c = true := by simp [isName] at hn; exact hn.1
    exact lexes_tok (by simp) (r := ⟨.ID, F_ID, []⟩) (pick_def (idFirst_ne hc (by decide)) (idFirst_ne hc (by decide))
      (idFirst_ne hc (by decide)) (i := 9) (defIdx_id hc).symm (by decide) rfl hl (by simp)) (.inl rfl) rfl

theorem defIdx_blank {c : Char} (hb : blank c = true) : defIdx c = 8 := by
  have : c = ' ' ∨ c = '\t' := by simpa [blank] using hb
  rcases this with rfl | rfl <;> rfl

/-- Blanks in the parameter list. -/
theorem lex_defWs {stk : List Mode} {clp : Bool} {m : ExprMeta} {w rest : Str} (hw : w.all blank = true)
    (hr : NoHead blank rest) (p : Nat × Nat) (i : Nat) :
    Lexes ⟨.define, stk, true, clp, m⟩ p i w rest ⟨.define, stk, true, clp, m⟩ [] := by
  match w, hw with
  | [], _ => exact Lexes.nil _ _ _ _
  | c :: w, hw =>
    have hc : blank c = true := by simp at hw; exact hw.1
    have hne : ∀ d, blank d = false → c ≠ d := by rintro d hd rfl; rw [hc] at hd; cases hd
    have hl := longest_ws (l := c :: w) (by simp) hw hr
    exact lexes_skip (by simp) (r := ⟨.WS, WSr, [ifLp [skip] [pop, push .defineBody]]⟩) (pick_def (hne _ (by decide))
      (hne _ (by decide)) (hne _ (by decide)) (i := 8) (defIdx_blank hc).symm (by decide) rfl hl (by simp)) (.inl rfl) rfl

/-- Blanks in front of the macro text. -/
theorem lex_bodyWs {stk : List Mode} {clp : Bool} {m : ExprMeta} {w rest : Str} (hw : blanks w = true)
    (hr : NoHead blank rest) (p : Nat × Nat) (i : Nat) :
    Lexes ⟨.define, .default :: stk, false, clp, m⟩ p i w rest ⟨.defineBody, .default :: stk, false, clp, m⟩
      [tk .WS .default w p i] := by
  obtain ⟨hne, hw⟩ := blanks_ne hw
  match w, hne, hw with
  | c :: w, _, hw =>
    have hc : blank c = true := by simp at hw; exact hw.1
    have hne : ∀ d, blank d = false → c ≠ d := by rintro d hd rfl; rw [hc] at hd; cases hd
    have hl := longest_ws (l := c :: w) (by simp) hw hr
    exact lexes_tok (by simp) (r := ⟨.WS, WSr, [ifLp [skip] [pop, push .defineBody]]⟩) (pick_def (hne _ (by decide))
      (hne _ (by decide)) (hne _ (by decide)) (i := 8) (defIdx_blank hc).symm (by decide) rfl hl (by simp)) (.inl rfl) rfl

/-- The end of the line behind the name of a macro. -/
theorem lex_defEol {stk : List Mode} {clp : Bool} {m : ExprMeta} {e : Str} (he : isEol e = true) (rest : Str)
    (p : Nat × Nat) (i : Nat) :
    Lexes ⟨.define, .default :: stk, false, clp, m⟩ p i e rest ⟨.default, stk, false, clp, m⟩ [tk .NEW_LINE .default e p i] := by
  have hl := crlf_yes he rest
  simp only [isEol, Bool.or_eq_true, beq_iff_eq] at he
  rcases he with rfl | rfl
  · exact lexes_tok (by simp) (r := ⟨.NEW_LINE, CRLF, [ifLp [skip] [pop]]⟩) (pick_def (by decide) (by decide) (by decide)
      (i := 7) rfl (by decide) rfl hl (by simp)) (.inl rfl) rfl
  · exact lexes_tok (by simp) (r := ⟨.NEW_LINE, CRLF, [ifLp [skip] [pop]]⟩) (pick_def (by decide) (by decide) (by decide)
      (i := 7) rfl (by decide) rfl hl (by simp)) (.inl rfl) rfl

/-- `(`, `,`, `=`. -/
theorem lex_defSet {st st' : St} (hst : st.mode = .define) {c : Char} {i0 : Nat} {r : Rule} {ty : TT} (hi : i0 = defIdx c)
    (h10 : i0 ≠ 10) (hr : defineRules[i0]? = some r) (hre : r.re = set [c])
    (he : r.exec st [c] = ⟨st', ty, false, .default, [c], false⟩)
    (hc : c ≠ '/') (h1 : c ≠ '`') (h2 : c ≠ '\\') (rest : Str) (p : Nat × Nat) (i : Nat) :
    Lexes st p i [c] rest st' [tk ty .default [c] p i] := by
  refine lexes_tok (by simp) (r := r) (n := 1) ?_ (.inl rfl) he
  rw [hst]
  exact pick_def hc h1 h2 hi h10 hr (by rw [hre]; exact longest_set1 rest) (Nat.le_refl 1)

/-- `)` with the blanks behind it. -/
def RPr : Re := seq (set [')']) (star WSr)

theorem rp_yes {w rest : Str} (hw : w.all blank = true) (hr : NoHead blank rest) :
    longest RPr (syms (')' :: w ++ rest)) = some (')' :: w).length := by
  have h0 : RPr.der (some ')') = star WSr := rfl
  rw [List.cons_append, syms_cons]
  have hstep : ∀ c, blank c = true → (star WSr).der (some c) = seq (star F_WS) (star WSr) := by
    intro c hc
    have : c = ' ' ∨ c = '\t' := by simpa [blank] using hc
    rcases this with rfl | rfl <;> rfl
  have hloop : ∀ c, blank c = true → (seq (star F_WS) (star WSr)).der (some c) = seq (star F_WS) (star WSr) := by
    intro c hc
    have : c = ' ' ∨ c = '\t' := by simpa [blank] using hc
    rcases this with rfl | rfl <;> rfl
  have hd : ∀ c, blank c = false → (plus F_WS).der (some c) = .empty := fun c hc => plusWs_der hc
  have hF : ∀ c, blank c = false → F_WS.der (some c) = .empty := fun c hc => by rw [der_ws, hc]; rfl
  have hend1 : longest (star WSr) (syms rest) = some 0 := by
    refine longest_stop rfl rfl fun c hc => ?_
    rw [der, show WSr = plus F_WS from rfl, hd c (hr c hc)]; rfl
  have hend2 : longest (seq (star F_WS) (star WSr)) (syms rest) = some 0 := by
    refine longest_stop rfl rfl fun c hc => ?_
    rw [der, if_pos (show (star F_WS).nullable = true from rfl), der, hF c (hr c hc), der,
      show WSr = plus F_WS from rfl, hd c (hr c hc)]; rfl
  cases w with
  | nil => exact longest_step h0 hend1
  | cons c w =>
    simp only [List.all_cons, Bool.and_eq_true] at hw
    rw [List.cons_append, syms_cons, syms_append]
    rw [longest_step h0 (longest_step (hstep c hw.1) (longest_loop (p := fun c => blank c = true) (fun c hc => hloop c hc)
      (by simpa using hw.2) hend2))]
    simp

theorem lex_defRp {stk : List Mode} {clp : Bool} {m : ExprMeta} {w rest : Str} (hw : w.all blank = true) (hr : NoHead blank rest)
    (p : Nat × Nat) (i : Nat) :
    Lexes ⟨.define, .default :: stk, true, clp, m⟩ p i (')' :: w) rest ⟨.defineBody, .default :: stk, true, clp, m⟩
      [tk .RP .default (')' :: w) p i] :=
  lexes_tok (by simp) (r := ⟨.RP, RPr, [ifLp [pop, push .defineBody] [ty .CODE, pop, push .defineBody]]⟩)
    (pick_def (by decide) (by decide) (by decide) (i := 4) rfl (by decide) rfl (rp_yes hw hr) (by simp)) (.inl rfl) rfl

/-! ## the macro text -/

/-- Inside of DB_CODE. -/
def D0 : Re := star dbStep
/-- Inside of DB_CODE behind a back-tick. -/
def B0 : Re := dbStep.der (some '`')
def B1 : Re := seq B0 D0

theorem db_ch {c : Char} (h1 : c ≠ '\\') (h2 : c ≠ '\n') (h3 : c ≠ '"') (h4 : c ≠ '`') :
    (plus dbStep).der (some c) = D0 ∧ D0.der (some c) = D0 ∧ B1.der (some c) = D0 := by
  have hu : ∀ r ∈ [plus dbStep, D0, B1], ∃ l, Re.uses r = some l ∧ 'a' ∉ l ∧ c ∉ l := by
    intro r hr
    simp only [List.mem_cons, List.not_mem_nil, or_false] at hr
    rcases hr with rfl | rfl | rfl
    · refine ⟨_, rfl, by decide, ?_⟩; simp [h1, h2, h3, h4]
    · refine ⟨_, rfl, by decide, ?_⟩; simp [h1, h2, h3, h4]
    · refine ⟨_, rfl, by decide, ?_⟩; simp [h1, h2, h3, h4]
  have hr : ∀ r ∈ [plus dbStep, D0, B1], r.der (some c) = r.der (some 'a') := by
    intro r hr
    obtain ⟨l, h, ha, hc⟩ := hu r hr
    exact der_rep h hc ha
  refine ⟨?_, ?_, ?_⟩
  · rw [hr _ (by simp)]; rfl
  · rw [hr _ (by simp)]; rfl
  · rw [hr _ (by simp)]; rfl

theorem db_bt : (plus dbStep).der (some '`') = B1 ∧ D0.der (some '`') = B1 ∧ B1.der (some '`') = B1 := ⟨rfl, rfl, rfl⟩

/-- What can follow plain text in a macro text. -/
def BodyEnd (t : Str) : Prop := t = [] ∨ (∃ u, t = '"' :: u) ∨ (∃ u, t = '\\' :: '\n' :: u) ∨ ∃ u, t = '\n' :: u

theorem D0_end {t : Str} (h : BodyEnd t) : longest D0 (syms t) = some 0 := by
  rcases h with rfl | ⟨u, rfl⟩ | ⟨u, rfl⟩ | ⟨u, rfl⟩
  · rfl
  · rw [syms_cons, longest_dead rfl]; rfl
  · rw [syms_cons, syms_cons, longest_cons, longest_dead rfl]; rfl
  · rw [syms_cons, longest_dead rfl]; rfl

theorem db_text {s : Str} (hall : ∀ c ∈ s, c ≠ '\\' ∧ c ≠ '\n' ∧ c ≠ '"') {t : Str} (ht : BodyEnd t)
    (hl : s.getLast? ≠ some '`') :
    longest D0 (syms (s ++ t)) = some s.length ∧ (s ≠ [] → longest B1 (syms (s ++ t)) = some s.length ∧
      longest (plus dbStep) (syms (s ++ t)) = some s.length) := by
  induction s with
  | nil => exact ⟨D0_end ht, fun h => absurd rfl h⟩
  | cons c s ih =>
    obtain ⟨h1, h2, h3⟩ := hall c (by simp)
    have ih := ih (fun d hd => hall d (by simp [hd])) (by
      cases s with
      | nil => simp
      | cons d s => simpa using hl)
    rw [List.cons_append, syms_cons]
    by_cases hc : c = '`'
    · subst hc
      have hs : s ≠ [] := by rintro rfl; simp at hl
      obtain ⟨i1, i2⟩ := ih
      obtain ⟨e1, e2, e3⟩ := db_bt
      refine ⟨longest_step e2 (i2 hs).1, fun _ => ⟨longest_step e3 (i2 hs).1, longest_step e1 (i2 hs).1⟩⟩
    · obtain ⟨e1, e2, e3⟩ := db_ch h1 h2 h3 hc
      refine ⟨longest_step e2 ih.1, fun _ => ⟨longest_step e3 ih.1, longest_step e1 ih.1⟩⟩

theorem cut_id {s : Str} (h : noLine s = true) : cutOffLineComment s = s := by
  induction s with
  | nil => rfl
  | cons c s ih =>
    have hs : noLine s = true := by
      unfold noLine at h
      split at h
      · cases h
      · rename_i heq; cases heq; exact h
      · rename_i heq; cases heq
    unfold cutOffLineComment
    split
    · rename_i heq
      injection heq with e1 e2
      subst e1 e2
      simp [noLine] at h
    · rename_i heq
      injection heq with e1 e2
      subst e1 e2
      rw [ih hs]
    · rename_i heq; cases heq

theorem noLine_prefix {s t : Str} (h : noLine s = true) (hne : s ≠ []) (ht : BodyEnd t) : ¬ ['/', '/'] <+: s ++ t := by
  intro hp
  match s, hne with
  | c :: s, _ =>
    rw [List.cons_append, List.cons_prefix_cons] at hp
    obtain ⟨rfl, hp⟩ := hp
    match s with
    | [] =>
      rw [List.nil_append] at hp
      rcases ht with rfl | ⟨u, rfl⟩ | ⟨u, rfl⟩ | ⟨u, rfl⟩ <;> simp at hp
    | e :: s =>
      rw [List.cons_append, List.cons_prefix_cons] at hp
      rw [← hp.1] at h
      simp [noLine] at h

theorem lex_bodyPlain {stk : List Mode} {lp clp : Bool} {m : ExprMeta} {s rest : Str} (hok : (BodyPiece.plain s).ok = true)
    (hr : BodyEnd rest) (p : Nat × Nat) (i : Nat) :
    Lexes ⟨.defineBody, stk, lp, clp, m⟩ p i s rest ⟨.defineBody, stk, lp, clp, m⟩ [tk .CODE .default s p i] := by
  simp only [BodyPiece.ok, Bool.and_eq_true, Bool.not_eq_true', List.isEmpty_eq_false_iff, List.all_eq_true, bne_iff_ne] at hok
  obtain ⟨⟨⟨⟨hne, hall⟩, hnl⟩, hlast⟩, hhead⟩ := hok
  have hall' : ∀ c ∈ s, c ≠ '\\' ∧ c ≠ '\n' ∧ c ≠ '"' := fun c hc => ⟨(hall c hc).1.1, (hall c hc).1.2, (hall c hc).2⟩
  have hl := ((db_text hall' hr hlast).2 hne).2
  refine lexes_tok hne (r := ⟨.CODE, plus dbStep, [fun o => setText (cutOffLineComment o.text) o]⟩) (n := s.length) ?_ (.inl rfl) ?_
  · have hh : ∀ d, (d = '\\' ∨ d = '\n' ∨ d = '"' ∨ d = '\r') → NoHead (· == d) (s ++ rest) := by
      intro d hd
      match s, hne, hall', hhead with
      | c :: s, _, hall', hhead =>
        refine NoHead_cons.2 ?_
        have := hall' c (by simp)
        simp at hhead
        rcases hd with rfl | rfl | rfl | rfl <;> simp [this, hhead]
    refine pick_only (i := 3) rfl hl (fun j q hj hq => ?_)
    match j, hq with
    | 0, hq => cases hq; exact seq_set_no (hh _ (by simp))
    | 1, hq => cases hq; exact seq_set_no (hh _ (by simp))
    | 2, hq => cases hq; exact line_no (noLine_prefix hnl hne hr)
    | 3, hq => omega
    | 4, hq =>
      cases hq
      refine crlf_no fun c hc => ?_
      have h1 := hh '\r' (by simp) c hc
      have h2 := hh '\n' (by simp) c hc
      beta_reduce at h1 h2 ⊢
      rw [h1, h2]; rfl
    | j + 5, hq => simp [rules, defineBodyRules] at hq
  · simp [Rule.exec, cut_id hnl, setText, hne]

theorem lex_bodyStr {stk : List Mode} {lp clp : Bool} {m : ExprMeta} {l : List StrPiece} (hl : strOk l = true)
    (rest : Str) (p : Nat × Nat) (i : Nat) :
    Lexes ⟨.defineBody, stk, lp, clp, m⟩ p i (strText l) rest ⟨.defineBody, stk, lp, clp, m⟩
      [tk .CODE .default (strText l) p i] := by
  refine lexes_tok (by simp [strText]) (r := ⟨.CODE, STRr, []⟩) (n := (strText l).length) ?_ (.inl rfl) rfl
  have hh : ∀ (q : Char → Bool), q '"' = false → NoHead q (strText l ++ rest) := fun q h => NoHead_cons.2 h
  refine pick_only (i := 1) rfl (longest_str hl rest) (fun j q hj hq => ?_)
  match j, hq with
  | 0, hq => cases hq; exact seq_set_no (hh _ (by decide))
  | 1, hq => omega
  | 2, hq => cases hq; exact line_no (no_slash (by decide))
  | 3, hq => cases hq; exact (by show longest (plus dbStep) (syms ('"' :: _)) = none; rw [syms_cons, longest_dead rfl]; rfl)
  | 4, hq => cases hq; exact crlf_no (hh _ (by decide))
  | j + 5, hq => simp [rules, defineBodyRules] at hq

theorem lex_bodyEsc {stk : List Mode} {lp clp : Bool} {m : ExprMeta} (rest : Str) (p : Nat × Nat) (i : Nat) :
    Lexes ⟨.defineBody, stk, lp, clp, m⟩ p i ['\\', '\n'] rest ⟨.defineBody, stk, lp, clp, m⟩
      [tk .LINE_ESCAPE .lineEscape ['\\', '\n'] p i] := by
  refine lexes_tok (by simp) (r := ⟨.LINE_ESCAPE, F_LINE_ESCAPE, [chan .lineEscape]⟩) (n := 2) ?_ (.inl rfl) rfl
  have hh : ∀ (q : Char → Bool), q '\\' = false → NoHead q (['\\', '\n'] ++ rest) := fun q h => NoHead_cons.2 h
  refine pick_only (i := 0) rfl (longest_step rfl (longest_step rfl (longest_eps rest))) (fun j q hj hq => ?_)
  match j, hq with
  | 0, hq => omega
  | 1, hq => cases hq; exact seq_set_no (hh _ (by decide))
  | 2, hq => cases hq; exact line_no (no_slash (by decide))
  | 3, hq => cases hq; exact (by show longest (plus dbStep) (syms ('\\' :: '\n' :: rest)) = none
                                 rw [syms_cons, syms_cons, longest_cons, longest_dead rfl]; rfl)
  | 4, hq => cases hq; exact crlf_no (hh _ (by decide))
  | j + 5, hq => simp [rules, defineBodyRules] at hq

theorem lex_bodyEol {stk : List Mode} {lp clp : Bool} {m : ExprMeta} {e : Str} (he : isEol e = true) (rest : Str)
    (p : Nat × Nat) (i : Nat) :
    Lexes ⟨.defineBody, .default :: stk, lp, clp, m⟩ p i e rest ⟨.default, stk, lp, clp, m⟩ [tk .NEW_LINE .default e p i] := by
  refine lexes_tok (eol_ne he) (r := ⟨.NEW_LINE, CRLF, [pop]⟩) (n := e.length) ?_ (.inl rfl) rfl
  have hh : ∀ (q : Char → Bool), q '\n' = false → q '\r' = false → NoHead q (e ++ rest) := fun q h h' => eol_head he h h' rest
  refine pick_idx (i := 4) rfl (crlf_yes he rest) (fun j q k hj hq hk => ?_) (fun j q k hj hq hk => ?_)
  · match j, hq with
    | 0, hq => cases hq; rw [show longest F_LINE_ESCAPE _ = none from seq_set_no (hh _ (by decide) (by decide))] at hk; cases hk
    | 1, hq => cases hq; rw [show longest STRr _ = none from seq_set_no (hh _ (by decide) (by decide))] at hk; cases hk
    | 2, hq =>
      cases hq
      have : ¬ ['/', '/'] <+: e ++ rest := by
        rintro ⟨x, hx⟩
        have := hh (· == '/') (by decide) (by decide) '/' (by rw [← hx]; rfl)
        simp at this
      rw [line_no this] at hk; cases hk
    | 3, hq =>
      cases hq
      simp only [isEol, Bool.or_eq_true, beq_iff_eq] at he
      rcases he with rfl | rfl
      · change longest (plus dbStep) (syms ('\n' :: rest)) = _ at hk
        rw [syms_cons, longest_dead rfl] at hk; cases hk
      · have : longest (plus dbStep) (syms ('\r' :: '\n' :: rest)) = some 1 :=
          longest_step (db_ch (by decide) (by decide) (by decide) (by decide)).1 (D0_end (.inr (.inr (.inr ⟨_, rfl⟩))))
        change longest (plus dbStep) (syms ('\r' :: '\n' :: rest)) = _ at hk
        rw [this] at hk; cases hk; decide
    | j + 4, hq => omega
  · have : j < 5 := by
      have := (List.getElem?_eq_some_iff.1 hq).1
      simpa [rules, defineBodyRules] using this
    omega

/-- The tokens of a macro text. -/
def bodyToks : Nat × Nat → Nat → List BodyPiece → List Tok
  | _, _, [] => []
  | p, i, .esc :: r => tk .LINE_ESCAPE .lineEscape ['\\', '\n'] p i :: bodyToks (advance p ['\\', '\n']) (i + 2) r
  | p, i, .plain s :: r => tk .CODE .default s p i :: bodyToks (advance p s) (i + s.length) r
  | p, i, .str l :: r => tk .CODE .default (strText l) p i :: bodyToks (advance p (strText l)) (i + (strText l).length) r

/-- The last piece is plain text. -/
def endsPlain (l : List BodyPiece) : Bool := match l.getLast? with
  | some (.plain _) => true
  | _ => false

theorem endsPlain_cons {x y : BodyPiece} {l : List BodyPiece} : endsPlain (x :: y :: l) = endsPlain (y :: l) := by
  simp [endsPlain, List.getLast?_cons_cons]

theorem lex_body {stk : List Mode} {lp clp : Bool} {m : ExprMeta} (l : List BodyPiece) (hok : bodyOk l = true) {rest : Str}
    (hr : endsPlain l = true → BodyEnd rest) : ∀ (p : Nat × Nat) (i : Nat),
    Lexes ⟨.defineBody, stk, lp, clp, m⟩ p i (bodyText l) rest ⟨.defineBody, stk, lp, clp, m⟩ (bodyToks p i l) := by
  induction l with
  | nil => intro p i; exact Lexes.nil _ _ _ _
  | cons x l ih =>
    intro p i
    simp only [bodyOk, List.all_cons, Bool.and_eq_true] at hok
    have halt' : bodyAlt l = true := by
      have := hok.2
      cases x <;> cases l <;> (try rename_i y l; cases y) <;> simp_all [bodyAlt]
    have ih := ih (by simp only [bodyOk, Bool.and_eq_true]; exact ⟨hok.1.2, halt'⟩) (by
      intro h
      refine hr ?_
      cases l with
      | nil => simp [endsPlain] at h
      | cons y l => rw [endsPlain_cons]; exact h)
    show Lexes _ p i (x.text ++ bodyText l) rest _ _
    cases x with
    | plain s =>
      refine (lex_bodyPlain hok.1.1 ?_ p i).trans (ih _ _)
      cases l with
      | nil => exact hr (by simp [endsPlain])
      | cons y l =>
        cases y with
        | plain => simp [bodyAlt] at hok
        | str l => exact .inr (.inl ⟨_, rfl⟩)
        | esc => exact .inr (.inr (.inl ⟨_, rfl⟩))
    | str s => exact (lex_bodyStr hok.1.1 _ p i).trans (ih _ _)
    | esc => exact (lex_bodyEsc _ p i).trans (ih _ _)

end Verif.Pp
