import Verif.PpReads
/-!
# Lexer and parser on macro definitions
-/
namespace Verif.Pp
open Verif.Antlr Verif.Antlr.Re
open Verif.Spec.Pp (idFirst idNext blank blanks isEol isName noHead keywords StrPiece strText strOk
  ArgPiece argSpecial argText argAlt argOk balanced noComment commas BodyPiece bodyText bodyAlt bodyOk noLine Formal
  core bodyNode DefTail Item Items Rest after argToks)

theorem many_len (ty : TT) (ts : List PTok) : (many ty ts).2.length ≤ ts.length := by
  induction ts with
  | nil => exact Nat.le_refl _
  | cons t r ih =>
    rw [many]
    split
    · exact Nat.le_succ_of_le ih
    · exact Nat.le_refl _

theorem expect_len {ty : TT} {ts r : List PTok} {t : PTok} (h : expect ty ts = some (t, r)) : ts.length = r.length + 1 := by
  cases ts with
  | nil => simp [expect] at h
  | cons a ts =>
    rw [expect] at h
    split at h
    · cases h; rfl
    · cases h

theorem varId_len {ts r : List PTok} {x : Str} (h : varId ts = some (x, r)) : r.length + 1 ≤ ts.length := by
  simp only [varId, Option.bind_eq_bind, Option.bind_eq_some_iff, Option.pure_def, Option.some.injEq, Prod.mk.injEq] at h
  obtain ⟨⟨a, b⟩, h1, _, rfl⟩ := h
  have := expect_len h1
  have := many_len .COMMENT ts
  have := many_len .COMMENT b
  simp only at *
  omega

theorem param_len {lang : Nat} {ts r : List PTok} {x : Param} (h : param lang ts = some (x, r)) : r.length + 1 ≤ ts.length := by
  unfold param at h
  simp only [Option.bind_eq_bind, Option.bind_eq_some_iff] at h
  obtain ⟨⟨a, b⟩, h1, h⟩ := h
  have := varId_len h1
  simp only [Option.pure_def] at h
  split at h
  · split at h
    · rename_i c d h2
      simp only [Option.some.injEq, Prod.mk.injEq] at h
      obtain ⟨_, rfl⟩ := h
      have := expect_len h2
      have := many_len .CODE d
      omega
    · simp only [Option.some.injEq, Prod.mk.injEq] at h
      obtain ⟨_, rfl⟩ := h
      exact this
  · simp only [Option.some.injEq, Prod.mk.injEq] at h
    obtain ⟨_, rfl⟩ := h
    exact this

theorem params_len {lang : Nat} : ∀ {f : Nat} {ts r : List PTok} {x : List Param}, params lang f ts = some (x, r) → x.length ≤ ts.length := by
  intro f
  induction f with
  | zero => intro ts r x h; simp [params] at h
  | succ f ih =>
    intro ts r x h
    unfold params at h
    simp only [Option.bind_eq_bind, Option.bind_eq_some_iff] at h
    obtain ⟨⟨a, b⟩, h1, h⟩ := h
    have := param_len h1
    simp only [Option.pure_def] at h
    split at h
    · rename_i c d h2
      have := expect_len h2
      simp only [Option.bind_eq_some_iff, Option.some.injEq, Prod.mk.injEq] at h
      obtain ⟨⟨e, g⟩, h3, rfl, rfl⟩ := h
      have := ih h3
      simp only [List.length_cons]
      omega
    · simp only [Option.some.injEq, Prod.mk.injEq] at h
      obtain ⟨rfl, rfl⟩ := h
      simp only [List.length_singleton]
      omega

theorem Lexes.cast {st st' : St} {p : Nat × Nat} {i : Nat} {t r1 r2 : Str} {ts : List Tok} (h : Lexes st p i t r1 st' ts)
    (e : r1 = r2) : Lexes st p i t r2 st' ts := e ▸ h

theorem ends_eq (b : List BodyPiece) : Spec.Pp.endsCode b = endsPlain b := by
  unfold Spec.Pp.endsCode endsPlain
  cases b.getLast? with
  | none => rfl
  | some x => cases x <;> rfl

/-- The line end of a definition. -/
def EolDef (eol rest : Str) (crlf closed : Bool) : Prop :=
  eol = ['\n'] ∨ (eol = ['\r', '\n'] ∧ crlf = true) ∨ (eol = [] ∧ rest = [] ∧ closed = true)

/-- What `define` reads behind the parameters. -/
def defEnd (ts : List PTok) : Option (Option (Str × List CommentTok) × List PTok) :=
  (endOfDefine (many .CODE ts).2).map fun r =>
    (if (many .CODE ts).1.isEmpty then none else some (rawText (many .CODE ts).1, commentToks (many .CODE ts).1), r)

theorem define_eq {lang : Nat} {t i : PTok} {ts ts' r : List PTok} {ps : Option (List Param)} {b : Option (Str × List CommentTok)}
    (hi : i.tok.ty = .ID) (ha : defineArgs lang ts = some (ps, ts')) (hb : defEnd (many .WS ts').2 = some (b, r)) :
    define lang t (i :: ts) = some (.define ⟨t.tok.line, t.tok.col, i.tok.text, ps, b⟩, r) := by
  unfold define
  simp only [Option.bind_eq_bind, expect_cons hi, Option.bind_some, ha, Option.pure_def]
  simp only [defEnd, Option.map_eq_some_iff, Prod.mk.injEq] at hb
  obtain ⟨x, h1, h2, rfl⟩ := hb
  rw [h1, Option.bind_some, h2]

/-- What the parser reads at the end of a definition: it has the macro text `b`. -/
def EndReads (st : St) (p : Nat × Nat) (i : Nat) (t rest : Str) (b : Option (Str × List CommentTok)) : Prop :=
  ∃ lp' clp' m' ts ps, Lexes st p i t rest ⟨.default, [], lp', clp', m'⟩ ts ∧
    (∀ more, group [] (ts ++ more) = ps ++ group [] more) ∧
    ∀ qs, (rest = [] → nextTy qs = .EOF) → defEnd (ps ++ qs) = some (b, qs) ∧ nextTy (ps ++ qs) ≠ .WS ∧ nextTy (ps ++ qs) ≠ .LP

theorem endOfDefine_eof {qs : List PTok} (h : nextTy qs = .EOF) : endOfDefine qs = some qs := by
  simp [endOfDefine, h]

theorem nextTy_codes {ps qs : List PTok} {ty : TT} (h : ∀ t ∈ ps, t.tok.ty = .CODE) (hc : ty ≠ .CODE) (hq : nextTy qs ≠ ty) :
    nextTy (ps ++ qs) ≠ ty := by
  cases ps with
  | nil => exact hq
  | cons t ps =>
    show t.tok.ty ≠ ty
    rw [h t (by simp)]
    exact fun h => hc h.symm

theorem endReads_body {lp clp : Bool} {m : ExprMeta} {l : List BodyPiece} (hok : bodyOk l = true) {eol rest : Str}
    (he : EolDef eol rest (!endsPlain l) (l.getLast? != some .esc)) (p : Nat × Nat) (i : Nat) :
    EndReads ⟨.defineBody, [.default], lp, clp, m⟩ p i (bodyText l ++ eol) rest (bodyNode l) := by
  have hb : endsPlain l = true → BodyEnd (eol ++ rest) := by
    intro h
    rcases he with rfl | ⟨rfl, h'⟩ | ⟨rfl, rfl, _⟩
    · exact .inr (.inr (.inr ⟨_, rfl⟩))
    · simp [h] at h'
    · exact .inl rfl
  have h1 := lex_body (stk := [.default]) (lp := lp) (clp := clp) (m := m) l hok hb p i
  have hnode := body_node l [] p i
  by_cases hne : eol = []
  · subst hne
    have hh : rest = [] ∧ l.getLast? ≠ some .esc := by
      rcases he with h | ⟨h, _⟩ | ⟨_, h, h'⟩
      · cases h
      · cases h
      · exact ⟨h, by simpa using h'⟩
    obtain ⟨rfl, hcl⟩ := hh
    refine ⟨lp, clp, m, bodyToks p i l, (bodyP [] p i l).1, ?_, ?_, ?_⟩
    · rw [List.append_nil]
      exact h1.to_end
    · intro more
      rw [group_body, bodyP_closed l hcl [] p i (fun _ => rfl)]
    · intro qs hq
      have hq := hq rfl
      have hm := many_append (qs := qs) (bodyP_ty l [] p i) (by rw [hq]; decide)
      refine ⟨?_, nextTy_codes (bodyP_ty l [] p i) (by decide) (by rw [hq]; decide),
        nextTy_codes (bodyP_ty l [] p i) (by decide) (by rw [hq]; decide)⟩
      rw [defEnd, hm, endOfDefine_eof hq, Option.map_some, hnode]
  · have hel : isEol eol = true := by
      rcases he with rfl | ⟨rfl, h'⟩ | ⟨rfl, rfl, _⟩
      · rfl
      · rfl
      · exact absurd rfl hne
    have h2 := h1.trans (lex_bodyEol (stk := []) (lp := lp) (clp := clp) (m := m) hel rest _ _)
    refine ⟨lp, clp, m, _, (bodyP [] p i l).1 ++ [⟨tk .NEW_LINE .default eol (advance p (bodyText l)) (i + (bodyText l).length), (bodyP [] p i l).2⟩],
      h2, ?_, ?_⟩
    · intro more
      rw [List.append_assoc, group_body, List.singleton_append, group, if_pos (by rfl), List.append_assoc]
      rfl
    · intro qs _
      have hm := many_append (ty := .CODE) (qs := ⟨tk .NEW_LINE .default eol (advance p (bodyText l)) (i + (bodyText l).length), (bodyP [] p i l).2⟩ :: qs)
        (bodyP_ty l [] p i) (show TT.NEW_LINE ≠ TT.CODE by decide)
      rw [List.append_assoc, List.singleton_append]
      refine ⟨?_, nextTy_codes (bodyP_ty l [] p i) (by decide) (show TT.NEW_LINE ≠ TT.WS by decide),
        nextTy_codes (bodyP_ty l [] p i) (by decide) (show TT.NEW_LINE ≠ TT.LP by decide)⟩
      rw [defEnd, hm]
      simp only [hnode]
      rfl

theorem endReads_none {clp : Bool} {m : ExprMeta} {eol rest : Str} (he : EolDef eol rest true true) (p : Nat × Nat) (i : Nat) :
    EndReads ⟨.define, [.default], false, clp, m⟩ p i eol rest none := by
  by_cases hne : eol = []
  · subst hne
    have hh : rest = [] := by
      rcases he with h | ⟨h, _⟩ | ⟨_, h, h'⟩
      · cases h
      · cases h
      · exact h
    subst hh
    refine ⟨false, clp, m, [], [], (Lexes.nil ⟨.define, [.default], false, clp, m⟩ _ _ _).to_end, fun _ => rfl, ?_⟩
    intro qs hq
    have hq := hq rfl
    rw [List.nil_append]
    refine ⟨?_, by rw [hq]; decide, by rw [hq]; decide⟩
    rw [defEnd, many_stop (by rw [hq]; decide), endOfDefine_eof hq]; rfl
  · have hel : isEol eol = true := by
      rcases he with rfl | ⟨rfl, h'⟩ | ⟨rfl, rfl, _⟩
      · rfl
      · rfl
      · exact absurd rfl hne
    refine ⟨false, clp, m, _, wrap _, lex_defEol hel rest p i, group_wrap (by simp [tk]), ?_⟩
    intro qs _
    exact ⟨rfl, (by decide : TT.NEW_LINE ≠ TT.WS), (by decide : TT.NEW_LINE ≠ TT.LP)⟩

theorem reads_define {lang : Nat} {input : Str} {p : Nat × Nat} {i : Nat} {ws n eol rest : Str} {tail : DefTail}
    (hw : blanks ws = true) (hn : isName n = true) (ht : tail.ok lang = true) (he : EolDef eol rest tail.crlf tail.closed) :
    ItemReads lang input p i (c! "`define" ++ ws ++ n ++ tail.text ++ eol) rest
      (.define ⟨p.1, p.2 + 1, n, tail.params, tail.node⟩) := by
  refine reads_dir fun lp clp m => ?_
  -- the keyword
  have h1 : Lexes ⟨.default, [], lp, clp, m⟩ p i ('`' :: (c! "define" ++ ws)) (n ++ (tail.text ++ (eol ++ rest))) ⟨.define, [.default], false, clp, m⟩
      [tk .DEFINE .default (c! "define" ++ ws) (p.1, p.2 + 1) (i + 1)] := by
    obtain ⟨hw1, hw2⟩ := blanks_ne hw
    refine lex_kw (j := 1) (d := (c! "define", DEFr)) (k := ws.length) rfl rfl (blank_head hw1 hw2 (by decide) (by decide) _) ?_
      (define_ws hw ?_) (.inl rfl) rfl p i
    · rw [List.dropWhile_append_of_pos (by simpa using hw2)]
      match n, hn with
      | c :: n, hn =>
        have hc : idFirst c = true := by simp [isName] at hn; exact hn.1
        rw [List.cons_append, List.dropWhile_cons_of_neg (by rw [blank_false (idNext_of_first hc)]; decide)]
        exact name_paren hn _
    · match n, hn with
      | c :: n, hn => exact ⟨c, _, rfl, by simp [isName] at hn; exact hn.1⟩
  -- the name
  have hid : NoHead idNext (tail.text ++ (eol ++ rest)) := by
    cases tail with
    | none =>
      rcases he with rfl | ⟨rfl, _⟩ | ⟨rfl, rfl, _⟩
      · exact NoHead_cons.2 (by decide)
      · exact NoHead_cons.2 (by decide)
      · exact NoHead_nil
    | body w b =>
      simp only [DefTail.ok, Bool.and_eq_true] at ht
      obtain ⟨hw1, hw2⟩ := blanks_ne ht.1.1
      rw [DefTail.text, List.append_assoc]
      exact blank_head hw1 hw2 (by decide) (by decide) _
    | args fs w b => exact NoHead_cons.2 (by decide)
  have h2 := h1.trans (lex_defId (stk := [.default]) (lp := false) (clp := clp) (m := m) hn hid _ _)
  cases tail with
  | none =>
    obtain ⟨lp', clp', m', ts, ps, e1, e2, e3⟩ := endReads_none (clp := clp) (m := m) he
      (advance p (('`' :: (c! "define" ++ ws)) ++ n)) (i + (('`' :: (c! "define" ++ ws)) ++ n).length)
    refine ⟨lp', clp', m', tk .DEFINE .default (c! "define" ++ ws) (p.1, p.2 + 1) (i + 1), tk .ID .default n (advance p ('`' :: (c! "define" ++ ws))) (i + ('`' :: (c! "define" ++ ws)).length) :: ts,
      ⟨tk .ID .default n (advance p ('`' :: (c! "define" ++ ws))) (i + ('`' :: (c! "define" ++ ws)).length), []⟩ :: ps, ?_, rfl, rfl, rfl, ?_, ?_⟩
    · have h3 := (h2.cast (r2 := eol ++ rest) rfl).trans e1
      rw [DefTail.text, List.append_nil]
      exact h3
    · intro more
      show group [] (tk .ID _ _ _ _ :: (ts ++ more)) = _
      rw [group, if_pos (by rfl), e2]; rfl
    · intro qs hq
      obtain ⟨q1, q2, q3⟩ := e3 qs hq
      show define _ _ (_ :: (ps ++ qs)) = _
      exact define_eq (ts' := ps ++ qs) rfl (by rw [defineArgs, expect_none q3]; rfl) (by rw [many_stop q2]; exact q1)
  | body w b =>
    simp only [DefTail.ok, Bool.and_eq_true] at ht
    obtain ⟨⟨hw', hb⟩, hnb⟩ := ht
    have hh : NoHead blank (bodyText b ++ (eol ++ rest)) := by
      by_cases hbe : bodyText b = []
      · rw [hbe]
        rcases he with rfl | ⟨rfl, _⟩ | ⟨rfl, rfl, _⟩
        · exact NoHead_cons.2 (by decide)
        · exact NoHead_cons.2 (by decide)
        · exact NoHead_nil
      · match h : bodyText b, hbe with
        | c :: r, _ =>
          rw [h] at hnb
          simp [noHead] at hnb
          exact NoHead_cons.2 hnb
    rw [DefTail.text, List.append_assoc] at h2
    have h3 := h2.trans (lex_bodyWs (stk := []) (clp := clp) (m := m) hw' hh _ _)
    obtain ⟨lp', clp', m', ts, ps, e1, e2, e3⟩ := endReads_body (lp := false) (clp := clp) (m := m) hb
      (by rw [← ends_eq]; exact he)
      (advance p (('`' :: (c! "define" ++ ws)) ++ n ++ w)) (i + (('`' :: (c! "define" ++ ws)) ++ n ++ w).length)
    refine ⟨lp', clp', m', tk .DEFINE .default (c! "define" ++ ws) (p.1, p.2 + 1) (i + 1), tk .ID .default n (advance p ('`' :: (c! "define" ++ ws))) (i + ('`' :: (c! "define" ++ ws)).length) ::
      tk .WS .default w (advance p (('`' :: (c! "define" ++ ws)) ++ n)) (i + (('`' :: (c! "define" ++ ws)) ++ n).length) :: ts,
      ⟨tk .ID .default n (advance p ('`' :: (c! "define" ++ ws))) (i + ('`' :: (c! "define" ++ ws)).length), []⟩ ::
      ⟨tk .WS .default w (advance p (('`' :: (c! "define" ++ ws)) ++ n)) (i + (('`' :: (c! "define" ++ ws)) ++ n).length), []⟩ :: ps, ?_, rfl, rfl, rfl, ?_, ?_⟩
    · have h4 := (h3.cast (r2 := (bodyText b ++ eol) ++ rest) (by rw [List.append_assoc])).trans e1
      rw [DefTail.text]
      have ee : c! "`define" ++ ws ++ n ++ (w ++ bodyText b) ++ eol = ('`' :: (c! "define" ++ ws)) ++ n ++ w ++ (bodyText b ++ eol) := by simp
      rw [ee]
      exact h4
    · intro more
      show group [] (tk .ID _ _ _ _ :: tk .WS _ _ _ _ :: (ts ++ more)) = _
      rw [group, if_pos (by rfl), group, if_pos (by rfl), e2]; rfl
    · intro qs hq
      obtain ⟨q1, q2, q3⟩ := e3 qs hq
      show define _ _ (_ :: ⟨tk .WS _ _ _ _, _⟩ :: (ps ++ qs)) = _
      refine define_eq (ts' := ⟨tk .WS _ _ _ _, _⟩ :: (ps ++ qs)) rfl (by rw [defineArgs, expect_none (ty := .LP) (r := ⟨tk .WS _ _ _ _, _⟩ :: (ps ++ qs)) (show TT.WS ≠ TT.LP by decide)]; rfl) ?_
      rw [many, if_pos (by rfl), many_stop q2]
      exact q1
  | args fs w b =>
    simp only [DefTail.ok, Bool.and_eq_true] at ht
    obtain ⟨⟨⟨hfs, hw'⟩, hb⟩, hnb⟩ := ht
    have hh : NoHead blank (bodyText b ++ (eol ++ rest)) := by
      by_cases hbe : bodyText b = []
      · rw [hbe]
        rcases he with rfl | ⟨rfl, _⟩ | ⟨rfl, rfl, _⟩
        · exact NoHead_cons.2 (by decide)
        · exact NoHead_cons.2 (by decide)
        · exact NoHead_nil
      · match h : bodyText b, hbe with
        | c :: r, _ =>
          rw [h] at hnb
          simp [noHead] at hnb
          exact NoHead_cons.2 hnb
    have h3 := (show Lexes _ p i _ (['('] ++ ((commas (fs.map Formal.text) ++ ')' :: (w ++ bodyText b)) ++ (eol ++ rest))) _ _ from h2).trans (lex_defSet (st := ⟨.define, [.default], false, clp, m⟩) (st' := ⟨.define, [.default], true, clp, m⟩) (ty := .LP) rfl (c := '(')
      (i0 := 3) rfl (by decide) rfl rfl rfl (by decide) (by decide) (by decide)
      ((commas (fs.map Formal.text) ++ ')' :: (w ++ bodyText b)) ++ (eol ++ rest)) _ _)
    by_cases hne : fs = []
    · subst hne
      have hcr : EolDef eol rest (!endsPlain b) (b.getLast? != some .esc) := by
        rcases he with h | ⟨h, h'⟩ | h
        · exact .inl h
        · refine .inr (.inl ⟨h, ?_⟩)
          simpa [DefTail.crlf, ends_eq] using h'
        · exact .inr (.inr h)
      have h4 := (h3.cast (r2 := (')' :: w) ++ (bodyText b ++ (eol ++ rest))) (by simp [commas])).trans
        (lex_defRp (stk := []) (clp := clp) (m := m) hw' hh _ _)
      obtain ⟨lp', clp', m', ts, ps, e1, e2, e3⟩ := endReads_body (lp := true) (clp := clp) (m := m) hb hcr
        (advance p (('`' :: (c! "define" ++ ws)) ++ n ++ ['('] ++ (')' :: w))) (i + (('`' :: (c! "define" ++ ws)) ++ n ++ ['('] ++ (')' :: w)).length)
      refine ⟨lp', clp', m', tk .DEFINE .default (c! "define" ++ ws) (p.1, p.2 + 1) (i + 1), tk .ID .default n (advance p ('`' :: (c! "define" ++ ws))) (i + ('`' :: (c! "define" ++ ws)).length) ::
      tk .LP .default ['('] (advance p (('`' :: (c! "define" ++ ws)) ++ n)) (i + (('`' :: (c! "define" ++ ws)) ++ n).length) ::
      tk .RP .default (')' :: w) (advance p (('`' :: (c! "define" ++ ws)) ++ n ++ ['('])) (i + (('`' :: (c! "define" ++ ws)) ++ n ++ ['(']).length) :: ts,
      ⟨tk .ID .default n (advance p ('`' :: (c! "define" ++ ws))) (i + ('`' :: (c! "define" ++ ws)).length), []⟩ ::
      ⟨tk .LP .default ['('] (advance p (('`' :: (c! "define" ++ ws)) ++ n)) (i + (('`' :: (c! "define" ++ ws)) ++ n).length), []⟩ ::
      ⟨tk .RP .default (')' :: w) (advance p (('`' :: (c! "define" ++ ws)) ++ n ++ ['('])) (i + (('`' :: (c! "define" ++ ws)) ++ n ++ ['(']).length), []⟩ :: ps, ?_, rfl, rfl, rfl, ?_, ?_⟩
      · have h5 := (h4.cast (r2 := (bodyText b ++ eol) ++ rest) (by rw [List.append_assoc])).trans e1
        have ee : c! "`define" ++ ws ++ n ++ (DefTail.args [] w b).text ++ eol = ('`' :: (c! "define" ++ ws)) ++ n ++ ['('] ++ (')' :: w) ++ (bodyText b ++ eol) := by
          simp [DefTail.text, commas]
        rw [ee]
        exact h5
      · intro more
        show group [] (tk .ID _ _ _ _ :: tk .LP _ _ _ _ :: tk .RP _ _ _ _ :: (ts ++ more)) = _
        rw [group, if_pos (by rfl), group, if_pos (by rfl), group, if_pos (by rfl), e2]; rfl
      · intro qs hq
        obtain ⟨q1, q2, q3⟩ := e3 qs hq
        show define _ _ (_ :: ⟨tk .LP _ _ _ _, _⟩ :: ⟨tk .RP _ _ _ _, _⟩ :: (ps ++ qs)) = _
        refine define_eq (ts' := (ps ++ qs)) rfl (by rw [defineArgs, expect_cons (by rfl)]; simp only; rw [expect_cons (by rfl)]; rfl) ?_
        rw [many_stop q2]
        simpa [DefTail.node] using q1
    · -- body
      have hl : ∃ b', bodyText b' = (if lastDflt fs then w else []) ++ bodyText b ∧ bodyOk b' = true ∧
          EolDef eol rest (!endsPlain b') (b'.getLast? != some .esc) ∧ bodyNode b' = (DefTail.args fs w b).node := by
        by_cases hld : lastDflt fs = true
        · refine ⟨mergeWs w b, by rw [if_pos hld, merge_text], merge_ok hw' hb, ?_, ?_⟩
          · rcases he with h | ⟨h, h'⟩ | ⟨h, h', h''⟩
            · exact .inl h
            · refine .inr (.inl ⟨h, ?_⟩)
              have hld' : ((fs.getLast?.bind (·.dflt)).isNone) = false := by
                unfold lastDflt at hld
                rw [Option.isNone_eq_false_iff]; exact hld
              simp only [DefTail.crlf, hld', Bool.or_false, Bool.and_eq_true, Bool.or_eq_true, beq_iff_eq, Bool.not_eq_true',
                List.isEmpty_eq_false_iff] at h'
              rw [merge_ends h'.1]
              simpa [ends_eq] using h'.2
            · refine .inr (.inr ⟨h, h', ?_⟩)
              simp only [DefTail.closed, bne_iff_ne] at h''
              simpa using merge_closed (ws := w) h''
          · rw [merge_node, DefTail.node]
            have hld' : ((fs.getLast?.bind (·.dflt)).isNone) = false := by
              unfold lastDflt at hld
              rw [Option.isNone_eq_false_iff]; exact hld
            simp [hld']
        · have hld' : ((fs.getLast?.bind (·.dflt)).isNone) = true := by
            unfold lastDflt at hld
            rw [Bool.not_eq_true] at hld
            rw [Option.isNone_iff_eq_none]
            simpa using hld
          refine ⟨b, by rw [if_neg hld]; rfl, hb, ?_, ?_⟩
          · rcases he with h | ⟨h, h'⟩ | ⟨h, h', h''⟩
            · exact .inl h
            · refine .inr (.inl ⟨h, ?_⟩)
              simp only [DefTail.crlf, hld', Bool.or_true, Bool.true_or, Bool.true_and] at h'
              simpa [ends_eq] using h'
            · exact .inr (.inr ⟨h, h', h''⟩)
          · rw [DefTail.node, if_pos (.inr hld')]
      obtain ⟨b', hb1, hb2, hb3, hb4⟩ := hl
      obtain ⟨fts, m2, rp, f1, f2, f3, f4, f5, f6⟩ := lex_formals (lang := lang) (stk := []) (clp := clp) fs hne hfs hw' hh
        (advance p (('`' :: (c! "define" ++ ws)) ++ n ++ ['('])) (i + (('`' :: (c! "define" ++ ws)) ++ n ++ ['(']).length) m
      have hsplit : (if lastDflt fs = true then [] else w) ++ ((if lastDflt fs = true then w else []) ++ bodyText b) = w ++ bodyText b := by
        split <;> simp
      have h4 := (show Lexes _ p i _ ((commas (fs.map Formal.text) ++ ')' :: (if lastDflt fs then [] else w)) ++
          ((if lastDflt fs then w else []) ++ (bodyText b ++ (eol ++ rest)))) _ _ by
        have : (commas (fs.map Formal.text) ++ ')' :: (if lastDflt fs = true then [] else w)) ++
          ((if lastDflt fs = true then w else []) ++ (bodyText b ++ (eol ++ rest))) = (commas (fs.map Formal.text) ++ ')' :: (w ++ bodyText b)) ++ (eol ++ rest) := by
          rw [← hsplit]; simp
        rw [this]; exact h3).trans f4
      obtain ⟨lp', clp', m', ts, ps, e1, e2, e3⟩ := endReads_body (lp := true) (clp := clp) (m := m2) hb2 hb3
        (advance p (('`' :: (c! "define" ++ ws)) ++ n ++ ['('] ++ (commas (fs.map Formal.text) ++ ')' :: (if lastDflt fs then [] else w))))
        (i + (('`' :: (c! "define" ++ ws)) ++ n ++ ['('] ++ (commas (fs.map Formal.text) ++ ')' :: (if lastDflt fs then [] else w))).length)
      refine ⟨lp', clp', m', tk .DEFINE .default (c! "define" ++ ws) (p.1, p.2 + 1) (i + 1), tk .ID .default n (advance p ('`' :: (c! "define" ++ ws))) (i + ('`' :: (c! "define" ++ ws)).length) ::
      tk .LP .default ['('] (advance p (('`' :: (c! "define" ++ ws)) ++ n)) (i + (('`' :: (c! "define" ++ ws)) ++ n).length) :: ((fts ++ [rp]) ++ ts),
      ⟨tk .ID .default n (advance p ('`' :: (c! "define" ++ ws))) (i + ('`' :: (c! "define" ++ ws)).length), []⟩ ::
      ⟨tk .LP .default ['('] (advance p (('`' :: (c! "define" ++ ws)) ++ n)) (i + (('`' :: (c! "define" ++ ws)) ++ n).length), []⟩ :: (wrap fts ++ ⟨rp, []⟩ :: ps), ?_, rfl, rfl, rfl, ?_, ?_⟩
      · have h5 := (h4.cast (r2 := (bodyText b' ++ eol) ++ rest) (by rw [hb1]; simp)).trans e1
        have ee : c! "`define" ++ ws ++ n ++ (DefTail.args fs w b).text ++ eol = ('`' :: (c! "define" ++ ws)) ++ n ++ ['('] ++
            (commas (fs.map Formal.text) ++ ')' :: (if lastDflt fs then [] else w)) ++ (bodyText b' ++ eol) := by
          rw [DefTail.text, ← hsplit, hb1]; simp
        rw [ee]
        exact h5
      · intro more
        show group [] (tk .ID _ _ _ _ :: tk .LP _ _ _ _ :: ((fts ++ [rp]) ++ ts ++ more)) = _
        rw [group, if_pos (by rfl), group, if_pos (by rfl), List.append_assoc, List.append_assoc, group_wrap f1, List.singleton_append,
          group, if_pos f2, e2]
        simp
      · intro qs hq
        obtain ⟨q1, q2, q3⟩ := e3 qs hq
        show define _ _ (_ :: ⟨tk .LP _ _ _ _, _⟩ :: ((wrap fts ++ ⟨rp, []⟩ :: ps) ++ qs)) = _
        have hp := f6 (fs.length) (⟨rp, []⟩ :: (ps ++ qs)) f3 (Nat.le_refl _)
        have hlen := params_len hp
        rw [List.length_map] at hlen
        have hp' := f6 ((wrap fts ++ ⟨rp, []⟩ :: (ps ++ qs)).length + 1) (⟨rp, []⟩ :: (ps ++ qs)) f3 (by omega)
        have hid' : nextTy (wrap fts ++ ⟨rp, []⟩ :: (ps ++ qs)) ≠ .RP := by
          match fts, f5 with
          | a :: r, f5 =>
            show a.ty ≠ .RP
            rw [show a.ty = .ID from f5]; decide
        refine (define_eq (ts' := (ps ++ qs)) (ps := some (fs.map Formal.param)) (b := (DefTail.args fs w b).node) (r := qs) rfl ?_ ?_).trans ?_
        · rw [defineArgs, expect_cons (by rfl)]
          simp only
          rw [List.append_assoc, List.cons_append, expect_none hid']
          simp only [hp', Option.bind_eq_bind, Option.bind_some]
          rw [expect_cons f3]
          rfl
        · rw [many_stop q2, q1, hb4]
        · match fs, hne with
          | f :: fs, _ => rfl

end Verif.Pp
