import Verif.PpModeLemmas
/-!
# Tokens of the parts of a source: one step after the other
-/
namespace Verif.Pp
open Verif.Antlr Verif.Antlr.Re
open Verif.Spec.Pp (idFirst idNext blank isName noHead keywords isEol blanks gapOk sepOk eolOk StrPiece strText strOk CodePiece
  noEnd ArgPiece argSpecial argText argAlt balanced noComment BodyPiece bodyText bodyAlt noLine)

/-- The lexer reads the text `t` with the tokens `ts` and goes on with `rest` in the state `st'`. -/
def Lexes (st : St) (p : Nat × Nat) (i : Nat) (t rest : Str) (st' : St) (ts : List Tok) : Prop :=
  lexR st p i (t ++ rest) = (lexR st' (advance p t) (i + t.length) rest).map (ts ++ ·)

theorem Lexes.nil (st : St) (p : Nat × Nat) (i : Nat) (rest : Str) : Lexes st p i [] rest st [] := by
  simp [Lexes, advance]

theorem Lexes.trans {st st1 st2 : St} {p : Nat × Nat} {i : Nat} {t u rest : Str} {ts us : List Tok}
    (h1 : Lexes st p i t (u ++ rest) st1 ts) (h2 : Lexes st1 (advance p t) (i + t.length) u rest st2 us) :
    Lexes st p i (t ++ u) rest st2 (ts ++ us) := by
  unfold Lexes at *
  rw [List.append_assoc, h1, h2, Option.map_map, advance_append, List.length_append, Nat.add_assoc]
  congr 1
  funext x
  simp

theorem Lexes.to_end {st st1 st2 : St} {p : Nat × Nat} {i : Nat} {t : Str} {ts : List Tok}
    (h : Lexes st p i t [] st1 ts) : Lexes st p i t [] st2 ts := by
  unfold Lexes at *
  rw [h, lexR_nil, lexR_nil]

/-- A token. -/
def tk (ty : TT) (ch : Chan) (t : Str) (p : Nat × Nat) (i : Nat) : Tok := ⟨ty, ch, t, p.1, p.2, i, i + t.length⟩

theorem lexes_tok {st st' : St} {p : Nat × Nat} {i : Nat} {t rest : Str} {r : Rule} {n : Nat} {ty : TT} {ch : Chan} (ht : t ≠ [])
    (hp : pick Rule.re (rules st.mode) (syms (t ++ rest)) = some (r, n)) (hn : n = t.length ∨ rest = [] ∧ t.length ≤ n)
    (he : r.exec st t = ⟨st', ty, false, ch, t, false⟩) : Lexes st p i t rest st' [tk ty ch t p i] := by
  unfold Lexes
  rw [lexR_tok ht hp hn (by rw [he]), he]
  rfl

theorem lexes_skip {st st' : St} {p : Nat × Nat} {i : Nat} {t rest : Str} {r : Rule} {n : Nat} {ty : TT} {ch : Chan} (ht : t ≠ [])
    (hp : pick Rule.re (rules st.mode) (syms (t ++ rest)) = some (r, n)) (hn : n = t.length ∨ rest = [] ∧ t.length ≤ n)
    (he : r.exec st t = ⟨st', ty, true, ch, t, false⟩) : Lexes st p i t rest st' [] := by
  unfold Lexes
  rw [lexR_tok ht hp hn (by rw [he]), he]
  rfl

/-! ## the default mode -/

theorem lex_str {stk : List Mode} {lp clp : Bool} {m : ExprMeta} {l : List StrPiece} (hl : strOk l = true) (p : Nat × Nat) (i : Nat)
    (rest : Str) : Lexes ⟨.default, stk, lp, clp, m⟩ p i (strText l) rest ⟨.default, stk, lp, clp, m⟩
      [tk .STR .default (strText l) p i] :=
  lexes_tok (by simp [strText]) (pick_str hl rest) (.inl rfl) rfl

theorem lex_line {stk : List Mode} {lp clp : Bool} {m : ExprMeta} {s eol rest : Str}
    (hs : s.all (fun c => c != '\r' && c != '\n') = true) (he : eolOk eol rest = true) (p : Nat × Nat) (i : Nat) :
    Lexes ⟨.default, stk, lp, clp, m⟩ p i (c! "//" ++ s ++ eol) rest ⟨.default, stk, lp, clp, m⟩
      [tk .LINE_COMMENT .default (c! "//" ++ s ++ eol) p i] := by
  obtain ⟨n, h1, h2⟩ := pick_line hs he
  exact lexes_tok (by simp) h1 h2 rfl

theorem lex_comment {stk : List Mode} {lp clp : Bool} {m : ExprMeta} {s : Str} (hs : noEnd s = true) (p : Nat × Nat) (i : Nat)
    (rest : Str) : Lexes ⟨.default, stk, lp, clp, m⟩ p i (c! "/*" ++ s ++ c! "*/") rest ⟨.default, stk, lp, clp, m⟩
      [tk .COMMENT .default (c! "/*" ++ s ++ c! "*/") p i] :=
  lexes_tok (by simp) (pick_comment hs rest) (.inl rfl) rfl

theorem lex_code {stk : List Mode} {lp clp : Bool} {m : ExprMeta} {l : List CodePiece} (hl : l.all CodePiece.ok = true)
    (hne : l ≠ []) {rest : Str} (hr : CodeEnd rest) (p : Nat × Nat) (i : Nat) :
    Lexes ⟨.default, stk, lp, clp, m⟩ p i (l.flatMap CodePiece.text) rest ⟨.default, stk, lp, clp, m⟩
      [tk .CODE .default (l.flatMap CodePiece.text) p i] := by
  refine lexes_tok ?_ (pick_code hl hne hr) (.inl rfl) rfl
  cases l with
  | nil => exact absurd rfl hne
  | cons x l => simp [codePiece_ne]

/-- The back-tick in front of a name. -/
theorem lex_bt {stk : List Mode} {lp clp : Bool} {m : ExprMeta} {n rest : Str} (hn : isName n = true) (p : Nat × Nat) (i : Nat) :
    Lexes ⟨.default, stk, lp, clp, m⟩ p i ['`'] (n ++ rest) ⟨.directive, .default :: stk, lp, clp, m⟩ [] := by
  cases n with
  | nil => simp [isName] at hn
  | cons c n =>
    simp [isName] at hn
    exact lexes_skip (by simp) (pick_bt hn.1 (n ++ rest)) (.inl rfl) rfl

/-- The keyword of a directive with what its token includes. -/
theorem lex_kw {stk : List Mode} {lp clp : Bool} {m : ExprMeta} {j : Nat} {d : Str × Re} {q : Rule} (hd : kwList[j]? = some d)
    (hq : directiveRules[j + 3]? = some q) {w rest : Str} {k : Nat} (hw : NoHead idNext (w ++ rest))
    (hc : NoHead (· == '(') ((w ++ rest).dropWhile blank))
    (hk : longest d.2 (syms (w ++ rest)) = some k) (hkn : k = w.length ∨ rest = [] ∧ w.length ≤ k) {st' : St} {ty : TT} {ch : Chan}
    (he : q.exec ⟨.directive, .default :: stk, lp, clp, m⟩ (d.1 ++ w) = ⟨st', ty, false, ch, d.1 ++ w, false⟩)
    (p : Nat × Nat) (i : Nat) :
    Lexes ⟨.default, stk, lp, clp, m⟩ p i ('`' :: (d.1 ++ w)) rest st' [tk ty ch (d.1 ++ w) (p.1, p.2 + 1) (i + 1)] := by
  have hkey : d.1 ∈ keywords := by rw [← kwList_keywords]; exact List.mem_map_of_mem (List.mem_of_getElem? hd)
  have hn := keywords_name _ hkey
  have hp := pick_kw hd hq hw hk (.inl (call_no hn hw hc))
  have h1 : Lexes ⟨.default, stk, lp, clp, m⟩ p i ['`'] ((d.1 ++ w) ++ rest) ⟨.directive, .default :: stk, lp, clp, m⟩ [] := by
    rw [List.append_assoc]; exact lex_bt hn p i
  have h2 : Lexes ⟨.directive, .default :: stk, lp, clp, m⟩ (advance p ['`']) (i + 1) (d.1 ++ w) rest st'
      [tk ty ch (d.1 ++ w) (advance p ['`']) (i + 1)] := by
    refine lexes_tok (by simp [isName_ne hn]) (n := d.1.length + k) ?_ ?_ he
    · rw [List.append_assoc]; exact hp
    · rcases hkn with rfl | ⟨h, h'⟩
      · exact .inl (by simp)
      · exact .inr ⟨h, by simp; omega⟩
  have := h1.trans h2
  have ha : advance p ['`'] = (p.1, p.2 + 1) := by obtain ⟨a, b⟩ := p; rfl
  rwa [ha] at this


theorem first_not_digit {c : Char} (h : idFirst c = true) : c.isDigit = false := by
  rw [← Bool.not_eq_true]
  intro hd
  simp only [idFirst, Char.isAlpha, Bool.or_eq_true, beq_iff_eq] at h
  rw [← isDigit_eq] at hd
  rw [← isUpper_eq, ← isLower_eq] at h
  simp at hd h
  rcases h with (h | h) | rfl
  · omega
  · omega
  · revert hd; decide

/-- The conditional directives with a name. -/
theorem lex_ifdef {stk : List Mode} {lp clp : Bool} {m : ExprMeta} {j : Nat} {d : Str × Re} {q : Rule} (hd : kwList[j]? = some d)
    (hq : directiveRules[j + 3]? = some q) {ty : TT} (hd2 : d.2 = plus F_WS)
    (he : ∀ st t, q.exec st t = ⟨(push .ifdef (pop ⟨st, ty, false, .default, t, false⟩)).st, ty, false, .default, t, (pop ⟨st, ty, false, .default, t, false⟩).fail⟩)
    {ws n rest : Str} (hw : blanks ws = true) (hn : isName n = true) (hr : NoHead idNext rest) (p : Nat × Nat) (i : Nat) :
    Lexes ⟨.default, stk, lp, clp, m⟩ p i ('`' :: (d.1 ++ ws) ++ n) rest ⟨.default, stk, lp, clp, m⟩
      [tk ty .default (d.1 ++ ws) (p.1, p.2 + 1) (i + 1),
        tk .ID .default n (advance p ('`' :: (d.1 ++ ws))) (i + ('`' :: (d.1 ++ ws)).length)] := by
  obtain ⟨hw1, hw2⟩ := blanks_ne hw
  have hnb : NoHead blank (n ++ rest) := name_head hn (fun c hc => blank_false (idNext_of_first hc)) rest
  have hdw : (ws ++ (n ++ rest)).dropWhile blank = n ++ rest := by
    rw [List.dropWhile_append_of_pos (by simpa using hw2)]
    cases n with
    | nil => simp [isName] at hn
    | cons c n => simp [isName] at hn; simp [blank_false (idNext_of_first hn.1)]
  have h1 : Lexes ⟨.default, stk, lp, clp, m⟩ p i ('`' :: (d.1 ++ ws)) (n ++ rest) ⟨.ifdef, .default :: stk, lp, clp, m⟩
      [tk ty .default (d.1 ++ ws) (p.1, p.2 + 1) (i + 1)] := by
    refine lex_kw hd hq (k := ws.length) (blank_head hw1 hw2 (by decide) (by decide) _) ?_ ?_ (.inl rfl) (by rw [he]; rfl) p i
    · rw [hdw]
      exact name_head hn (fun c hc => by simpa using idFirst_ne hc (d := '(') (by decide)) rest
    · rw [hd2]; exact longest_ws hw1 hw2 hnb
  refine h1.trans (lexes_tok (n := n.length) (isName_ne hn) (r := ⟨.ID, F_ID, [pop]⟩) ?_ (.inl rfl) rfl)
  show pick Rule.re ifdefRules _ = _
  have hnum : longest (plus F_DIGIT) (syms (n ++ rest)) = none :=
    plus_no der_digit rfl rfl (name_head hn (fun c hc => first_not_digit hc) rest)
  simp [ifdefRules, pick, hnum, longest_id hn hr]

theorem gap_paren {s t : Str} (h : gapOk s t = true) : NoHead (· == '(') ((s ++ t).dropWhile blank) := by
  simp only [gapOk, Bool.and_eq_true] at h
  obtain ⟨h1, h2⟩ := blanks_ne h.1.1
  rw [List.dropWhile_append_of_pos (by simpa using h2)]
  have := noHead_iff.1 h.1.2
  have hp := noHead_iff.1 h.2
  cases t with
  | nil => exact NoHead_nil
  | cons c t => rw [List.dropWhile_cons_of_neg (by simp [NoHead_cons.1 this])]; exact hp

theorem eol_paren {e : Str} (h : isEol e = true) (t : Str) : NoHead (· == '(') ((e ++ t).dropWhile blank) := by
  simp only [isEol, Bool.or_eq_true, beq_iff_eq] at h
  rcases h with rfl | rfl <;> simp [blank, NoHead]

theorem lex_endif {stk : List Mode} {lp clp : Bool} {m : ExprMeta} {sep rest : Str} (hs : sepOk sep rest = true) (p : Nat × Nat) (i : Nat) :
    Lexes ⟨.default, stk, lp, clp, m⟩ p i ('`' :: (c! "endif" ++ sep)) rest ⟨.default, stk, lp, clp, m⟩
      [tk .ENDIF .default (c! "endif" ++ sep) (p.1, p.2 + 1) (i + 1)] := by
  obtain ⟨n, hn, hn'⟩ := sep_len hs
  simp only [sepOk, Bool.or_eq_true, Bool.and_eq_true, beq_iff_eq] at hs
  refine lex_kw (j := 6) (d := (c! "endif", alt ANY_WS eof)) rfl rfl ?_ ?_ hn hn' rfl p i
  · rcases hs with (h | h) | ⟨rfl, rfl⟩
    · exact eol_head h (by decide) (by decide) _
    · simp only [gapOk, Bool.and_eq_true] at h
      exact blank_head (blanks_ne h.1.1).1 (blanks_ne h.1.1).2 (by decide) (by decide) _
    · exact NoHead_nil
  · rcases hs with (h | h) | ⟨rfl, rfl⟩
    · exact eol_paren h rest
    · exact gap_paren h
    · exact NoHead_nil

theorem lex_else {stk : List Mode} {lp clp : Bool} {m : ExprMeta} {sep rest : Str}
    (hs : isEol sep = true ∨ gapOk sep rest = true) (p : Nat × Nat) (i : Nat) :
    Lexes ⟨.default, stk, lp, clp, m⟩ p i ('`' :: (c! "else" ++ sep)) rest ⟨.default, stk, lp, clp, m⟩
      [tk .ELSE .default (c! "else" ++ sep) (p.1, p.2 + 1) (i + 1)] := by
  refine lex_kw (j := 5) (d := (c! "else", ANY_WS)) (k := sep.length) rfl rfl ?_ ?_ ?_ (.inl rfl) rfl p i
  · rcases hs with h | h
    · exact eol_head h (by decide) (by decide) _
    · simp only [gapOk, Bool.and_eq_true] at h
      exact blank_head (blanks_ne h.1.1).1 (blanks_ne h.1.1).2 (by decide) (by decide) _
  · rcases hs with h | h
    · exact eol_paren h rest
    · exact gap_paren h
  · rcases hs with h | h
    · exact anyws_eol h rest
    · simp only [gapOk, Bool.and_eq_true] at h
      exact anyws_ws h.1.1 (noHead_iff.1 h.1.2)

theorem wseol_heads {w e : Str} (hw : w.all blank = true) (he : isEol e = true) (t : Str) :
    NoHead idNext ((w ++ e) ++ t) ∧ NoHead (· == '(') (((w ++ e) ++ t).dropWhile blank) := by
  rw [List.append_assoc]
  refine ⟨blank_noId hw (eol_head he (by decide) (by decide) t), ?_⟩
  rw [List.dropWhile_append_of_pos (by simpa using hw)]
  exact eol_paren he t

/-- The directives which are one token up to the end of the line. -/
theorem lex_simple {stk : List Mode} {lp clp : Bool} {m : ExprMeta} {j : Nat} {d : Str × Re} {q : Rule} (hd : kwList[j]? = some d)
    (hq : directiveRules[j + 3]? = some q) {ty : TT} (hd2 : d.2 = WS_ENDING_NEW_LINE)
    (he : ∀ st t, q.exec st t = pop ⟨st, ty, false, .default, t, false⟩)
    {w e : Str} (hw : w.all blank = true) (hel : isEol e = true) (rest : Str) (p : Nat × Nat) (i : Nat) :
    Lexes ⟨.default, stk, lp, clp, m⟩ p i ('`' :: (d.1 ++ (w ++ e))) rest ⟨.default, stk, lp, clp, m⟩
      [tk ty .default (d.1 ++ (w ++ e)) (p.1, p.2 + 1) (i + 1)] := by
  obtain ⟨h1, h2⟩ := wseol_heads hw hel rest
  exact lex_kw hd hq h1 h2 (by rw [hd2]; exact wsnl_yes hw hel rest) (.inl rfl) (by rw [he]; rfl) p i

theorem lex_call {stk : List Mode} {lp clp : Bool} {m : ExprMeta} {n rest : Str} (hn : isName n = true) (hk : n ∉ keywords)
    (hr : Spec.Pp.callEnd rest = true) (p : Nat × Nat) (i : Nat) :
    Lexes ⟨.default, stk, lp, clp, m⟩ p i ('`' :: n) rest ⟨.default, stk, lp, clp, m⟩
      [tk .CALL .default n (p.1, p.2 + 1) (i + 1)] := by
  simp only [Spec.Pp.callEnd, Bool.and_eq_true] at hr
  have h1 := lex_bt (stk := stk) (lp := lp) (clp := clp) (m := m) (rest := rest) hn p i
  have h2 := lexes_tok (p := advance p ['`']) (i := i + 1) (st := ⟨.directive, .default :: stk, lp, clp, m⟩) (isName_ne hn)
    (pick_call hn hk (noHead_iff.1 hr.1) (noHead_iff.1 hr.2)) (.inl rfl) rfl
  have := h1.trans h2
  have ha : advance p ['`'] = (p.1, p.2 + 1) := by obtain ⟨a, b⟩ := p; rfl
  rw [ha] at this
  exact this

/-! ## `undef`, `include` -/

theorem lex_kwWs {stk : List Mode} {lp clp : Bool} {m : ExprMeta} {j : Nat} {d : Str × Re} {q : Rule} (hd : kwList[j]? = some d)
    (hq : directiveRules[j + 3]? = some q) (hd2 : d.2 = plus F_WS) {w rest : Str} (hw : blanks w = true)
    (hr : NoHead blank rest) (hr' : NoHead (· == '(') rest) {st' : St} {ty : TT} {ch : Chan}
    (he : q.exec ⟨.directive, .default :: stk, lp, clp, m⟩ (d.1 ++ w) = ⟨st', ty, false, ch, d.1 ++ w, false⟩)
    (p : Nat × Nat) (i : Nat) :
    Lexes ⟨.default, stk, lp, clp, m⟩ p i ('`' :: (d.1 ++ w)) rest st' [tk ty ch (d.1 ++ w) (p.1, p.2 + 1) (i + 1)] := by
  obtain ⟨hw1, hw2⟩ := blanks_ne hw
  refine lex_kw hd hq (k := w.length) (blank_head hw1 hw2 (by decide) (by decide) _) ?_ ?_ (.inl rfl) he p i
  · rw [List.dropWhile_append_of_pos (by simpa using hw2)]
    cases rest with
    | nil => exact NoHead_nil
    | cons c t => rw [List.dropWhile_cons_of_neg (by simp [NoHead_cons.1 hr])]; exact hr'
  · rw [hd2]; exact longest_ws hw1 hw2 hr

theorem name_blank {n : Str} (hn : isName n = true) (rest : Str) : NoHead blank (n ++ rest) :=
  name_head hn (fun c hc => blank_false (idNext_of_first hc)) rest
theorem name_paren {n : Str} (hn : isName n = true) (rest : Str) : NoHead (· == '(') (n ++ rest) :=
  name_head hn (fun c hc => by simpa using idFirst_ne hc (d := '(') (by decide)) rest
theorem name_crlf {n : Str} (hn : isName n = true) (rest : Str) : NoHead (fun c => c == '\r' || c == '\n') (n ++ rest) :=
  name_head hn (fun c hc => by
    simp [idFirst_ne hc (d := '\r') (by decide), idFirst_ne hc (d := '\n') (by decide)]) rest

theorem ws1_yes {c : Char} (h : blank c = true) (t : Str) : longest F_WS (syms ([c] ++ t)) = some 1 := by
  rw [List.singleton_append, syms_cons, longest_step (r' := .eps) (by rw [der_ws, h]; rfl) (longest_eps t)]
theorem ws1_no {t : Str} (h : NoHead blank t) : longest F_WS (syms t) = none := by
  refine longest_no rfl rfl fun c hc => ?_
  rw [der_ws, h c hc]; rfl

theorem lex_undef {stk : List Mode} {lp clp : Bool} {m : ExprMeta} {ws n sep rest : Str} (hw : blanks ws = true)
    (hn : isName n = true) (hs : isEol sep = true ∨ sep = [' '] ∨ sep = ['\t'] ∨ (sep = [] ∧ rest = [])) (p : Nat × Nat) (i : Nat) :
    ∃ st' e, (st' = ⟨.default, stk, lp, clp, m⟩ ∨ rest = []) ∧ (∀ t ∈ e, (t.ty = .WS ∨ t.ty = .NEW_LINE) ∧ t.chan = .default) ∧
      (e = [] → rest = []) ∧ e.length ≤ 1 ∧
      Lexes ⟨.default, stk, lp, clp, m⟩ p i (('`' :: (c! "undef" ++ ws)) ++ n ++ sep) rest st'
      (tk .UNDEF .default (c! "undef" ++ ws) (p.1, p.2 + 1) (i + 1) ::
        tk .ID .default n (advance p ('`' :: (c! "undef" ++ ws))) (i + ('`' :: (c! "undef" ++ ws)).length) :: e) := by
  have h1 : Lexes ⟨.default, stk, lp, clp, m⟩ p i ('`' :: (c! "undef" ++ ws)) (n ++ (sep ++ rest)) ⟨.undef, .default :: stk, lp, clp, m⟩
      [tk .UNDEF .default (c! "undef" ++ ws) (p.1, p.2 + 1) (i + 1)] :=
    lex_kwWs (j := 7) (d := (c! "undef", plus F_WS)) rfl rfl rfl hw (name_blank hn _) (name_paren hn _) rfl p i
  have hsep : NoHead idNext (sep ++ rest) := by
    rcases hs with h | rfl | rfl | ⟨rfl, rfl⟩
    · exact eol_head h (by decide) (by decide) _
    · exact NoHead_cons.2 (by decide)
    · exact NoHead_cons.2 (by decide)
    · exact NoHead_nil
  have h2 : ∀ p i, Lexes ⟨.undef, .default :: stk, lp, clp, m⟩ p i n (sep ++ rest) ⟨.undef, .default :: stk, lp, clp, m⟩
      [tk .ID .default n p i] := by
    intro p i
    refine lexes_tok (n := n.length) (isName_ne hn) (r := ⟨.ID, F_ID, []⟩) ?_ (.inl rfl) rfl
    show pick Rule.re undefRules _ = _
    simp [undefRules, pick, longest_id hn hsep, ws1_no (name_blank hn _), crlf_no (name_crlf hn _)]
  have h12 := h1.trans (h2 _ _)
  rcases hs with h | h | h | ⟨rfl, rfl⟩
  · refine ⟨_, [_], .inl rfl, ?_, by simp, by simp, h12.trans (lexes_tok (n := sep.length) (eol_ne h) (r := ⟨.NEW_LINE, CRLF, [pop]⟩) ?_ (.inl rfl) rfl)⟩
    · simp [tk]
    · show pick Rule.re undefRules _ = _
      simp [undefRules, pick, crlf_yes h, ws1_no (eol_head h (by decide) (by decide) rest), id_no (eol_head h (by decide) (by decide) rest)]
  · subst h
    refine ⟨_, [_], .inl rfl, ?_, by simp, by simp, h12.trans (lexes_tok (n := 1) (by simp) (r := ⟨.WS, F_WS, [pop]⟩) ?_ (.inl rfl) rfl)⟩
    · simp [tk]
    · show pick Rule.re undefRules _ = _
      simp only [undefRules, pick, crlf_no (t := [' '] ++ rest) (NoHead_cons.2 (by decide)), ws1_yes (c := ' ') (by decide),
        id_no (t := [' '] ++ rest) (NoHead_cons.2 (by decide))]
  · subst h
    refine ⟨_, [_], .inl rfl, ?_, by simp, by simp, h12.trans (lexes_tok (n := 1) (by simp) (r := ⟨.WS, F_WS, [pop]⟩) ?_ (.inl rfl) rfl)⟩
    · simp [tk]
    · show pick Rule.re undefRules _ = _
      simp only [undefRules, pick, crlf_no (t := ['\t'] ++ rest) (NoHead_cons.2 (by decide)), ws1_yes (c := '\t') (by decide),
        id_no (t := ['\t'] ++ rest) (NoHead_cons.2 (by decide))]
  · refine ⟨⟨.undef, .default :: stk, lp, clp, m⟩, [], .inr rfl, by simp, by simp, by simp, ?_⟩
    rw [List.append_nil]
    exact h12

theorem noHead_mono {p q : Char → Bool} (h : ∀ c, q c = true → p c = true) {s : Str} (hs : NoHead p s) : NoHead q s := by
  intro c hc
  have := hs c hc
  cases hq : q c with
  | false => rfl
  | true => rw [h c hq] at this; cases this

theorem lex_incl {stk : List Mode} {lp clp : Bool} {m : ExprMeta} {ws ws' eol rest : Str} {f : List StrPiece} (hw : blanks ws = true)
    (hf : strOk f = true) (hw' : ws'.all blank = true) (he : eolOk eol rest = true) (p : Nat × Nat) (i : Nat) :
    ∃ st', (st' = ⟨.default, stk, lp, clp, m⟩ ∨ rest = []) ∧
      Lexes ⟨.default, stk, lp, clp, m⟩ p i (('`' :: (c! "include" ++ ws)) ++ strText f ++ ws' ++ eol) rest st'
      [tk .INCLUDE .default (c! "include" ++ ws) (p.1, p.2 + 1) (i + 1),
        tk .STR .default (strText f) (advance p ('`' :: (c! "include" ++ ws))) (i + ('`' :: (c! "include" ++ ws)).length)] := by
  have hq : ∀ (q : Char → Bool) t, q '"' = false → NoHead q (strText f ++ t) := by
    intro q t h; rw [strText, List.cons_append, List.cons_append]; exact NoHead_cons.2 h
  have h1 : Lexes ⟨.default, stk, lp, clp, m⟩ p i ('`' :: (c! "include" ++ ws)) (strText f ++ (ws' ++ (eol ++ rest)))
      ⟨.incl, .default :: stk, lp, clp, m⟩ [tk .INCLUDE .default (c! "include" ++ ws) (p.1, p.2 + 1) (i + 1)] :=
    lex_kwWs (j := 0) (d := (c! "include", plus F_WS)) rfl rfl rfl hw (hq _ _ (by decide)) (hq _ _ (by decide)) rfl p i
  have h2 : ∀ p i, Lexes ⟨.incl, .default :: stk, lp, clp, m⟩ p i (strText f) (ws' ++ (eol ++ rest)) ⟨.incl, .default :: stk, lp, clp, m⟩
      [tk .STR .default (strText f) p i] := by
    intro p i
    refine lexes_tok (n := (strText f).length) (by simp [strText]) (r := ⟨.STR, STRr, []⟩) ?_ (.inl rfl) rfl
    refine pick_idx (i := 0) rfl (longest_str hf _) (fun j q k hj => by omega) (fun j q k hj hq' hk => ?_)
    have hlt : longest (seqs [set ['<'], star (non ['\\', '>']), set ['>']]) (syms (strText f ++ (ws' ++ (eol ++ rest)))) = none :=
      seq_set_no (hq _ _ (by decide))
    match j, hj, hq' with
    | 1, _, hq' => cases hq'; rw [hlt] at hk; cases hk
    | 2, _, hq' => cases hq'; rw [line_no (by simp [strText])] at hk; cases hk
    | 3, _, hq' => cases hq'; rw [crlf_no (hq _ _ (by decide))] at hk; cases hk
    | 4, _, hq' => cases hq'; rw [set1_no (hq _ _ (by decide))] at hk; cases hk
    | 5, _, hq' => cases hq'; rw [show WSr = plus F_WS from rfl, ws_no (hq _ _ (by decide))] at hk; cases hk
    | j + 6, _, hq' => simp [rules, inclRules] at hq'
  have h3 : ∀ p i, Lexes ⟨.incl, .default :: stk, lp, clp, m⟩ p i ws' (eol ++ rest) ⟨.incl, .default :: stk, lp, clp, m⟩ [] := by
    intro p i
    by_cases hne : ws' = []
    · subst hne; exact Lexes.nil _ _ _ _
    · have hb : NoHead blank (eol ++ rest) := by
        simp only [eolOk, Bool.or_eq_true, Bool.and_eq_true, beq_iff_eq] at he
        rcases he with h | ⟨rfl, rfl⟩
        · exact eol_head h (by decide) (by decide) _
        · exact NoHead_nil
      have hh : ∀ (q : Char → Bool), q ' ' = false → q '\t' = false → NoHead q (ws' ++ (eol ++ rest)) :=
        fun q h h' => blank_head hne hw' h h' _
      refine lexes_skip (n := ws'.length) hne (r := ⟨.EOF, WSr, [skip]⟩) ?_ (.inl rfl) rfl
      refine pick_only (i := 5) rfl (longest_ws hne hw' hb) (fun j q hj hq' => ?_)
      match j, hq' with
      | 0, hq' => cases hq'; exact str_no (hh _ (by decide) (by decide))
      | 1, hq' => cases hq'; exact seq_set_no (hh _ (by decide) (by decide))
      | 2, hq' =>
        cases hq'
        refine line_no fun h => ?_
        have := hh (· == '/') (by decide) (by decide) '/' (by
          obtain ⟨x, hx⟩ := h
          rw [← hx]; rfl)
        simp at this
      | 3, hq' => cases hq'; exact crlf_no (hh _ (by decide) (by decide))
      | 4, hq' => cases hq'; exact set1_no (hh _ (by decide) (by decide))
      | 5, hq' => omega
      | j + 6, hq' => simp [rules, inclRules] at hq'
  have h123 := (h1.trans (h2 _ _)).trans (h3 _ _)
  simp only [eolOk, Bool.or_eq_true, Bool.and_eq_true, beq_iff_eq] at he
  rcases he with h | ⟨rfl, rfl⟩
  · have hh : ∀ (q : Char → Bool), q '\n' = false → q '\r' = false → NoHead q (eol ++ rest) :=
      fun q h1 h2 => eol_head h h1 h2 _
    refine ⟨⟨.default, stk, lp, clp, m⟩, .inl rfl, h123.trans (us := []) ?_⟩
    refine lexes_skip (n := eol.length) (eol_ne h) (r := ⟨.NEW_LINE, CRLF, [pop, skip]⟩) ?_ (.inl rfl) rfl
    refine pick_only (i := 3) rfl (crlf_yes h rest) (fun j q hj hq' => ?_)
    match j, hq' with
    | 0, hq' => cases hq'; exact str_no (hh _ (by decide) (by decide))
    | 1, hq' => cases hq'; exact seq_set_no (hh _ (by decide) (by decide))
    | 2, hq' =>
      cases hq'
      refine line_no fun h => ?_
      have := hh (· == '/') (by decide) (by decide) '/' (by
        obtain ⟨x, hx⟩ := h
        rw [← hx]; rfl)
      simp at this
    | 3, hq' => omega
    | 4, hq' => cases hq'; exact set1_no (hh _ (by decide) (by decide))
    | 5, hq' => cases hq'; exact ws_no (hh _ (by decide) (by decide))
    | j + 6, hq' => simp [rules, inclRules] at hq'
  · refine ⟨⟨.incl, .default :: stk, lp, clp, m⟩, .inr rfl, ?_⟩
    rw [List.append_nil]
    exact h123

end Verif.Pp
