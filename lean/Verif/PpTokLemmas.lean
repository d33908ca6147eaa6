import Verif.PpReLemmas
/-!
# The tokens of the parts of a source
-/
namespace Verif.Pp
open Verif.Antlr Verif.Antlr.Re
open Verif.Spec.Pp (idFirst idNext blank isName noHead StrPiece strText strOk CodePiece noEnd special white)

theorem ders_append (r : Re) (p q : Str) : ders r (p ++ q) = ders (ders r p) q := by
  induction p generalizing r with
  | nil => rfl
  | cons c p ih => simp only [List.cons_append, ders, ih]

/-! ## strings -/

/-- Inside of a string. -/
def S0 : Re := seq (star (alt (seq (set ['\\']) (alt (set ['"']) CRLF)) (non ['"', '\r', '\n']))) (set ['"'])
/-- Behind a backslash. -/
def S1 : Re := S0.der (some '\\')
/-- Behind an escaped quote: this may be the end. -/
def S2 : Re := S1.der (some '"')

/-- A state inside of a string. -/
def InS (r : Re) : Prop := r = S0 ∨ r = S1 ∨ r = S2

theorem S0_ch {r : Re} (h : InS r) {c : Char} (hc : c ≠ '"' ∧ c ≠ '\\' ∧ c ≠ '\r' ∧ c ≠ '\n') : r.der (some c) = S0 := by
  have hm : c ∉ ['\\', '"', '\r', '\n', '"', '\r', '\n', '"'] := by simp [hc]
  rcases h with rfl | rfl | rfl
  · rw [der_rep (l := ['\\', '"', '\r', '\n', '"', '\r', '\n', '"']) rfl hm (d := 'a') (by decide)]; rfl
  · rw [der_rep (l := ['"', '\r', '\n', '\\', '"', '\r', '\n', '"', '\r', '\n', '"']) rfl (by simp [hc]) (d := 'a') (by decide)]; rfl
  · rw [der_rep (l := ['\\', '"', '\r', '\n', '"', '\r', '\n', '"']) rfl hm (d := 'a') (by decide)]; rfl

theorem S0_bs {r : Re} (h : InS r) : r.der (some '\\') = S1 := by
  rcases h with rfl | rfl | rfl <;> rfl

theorem S1_any {c : Char} (hc : c ≠ '\r') : S1.der (some c) = if c = '\\' then S1 else if c = '"' then S2 else S0 := by
  by_cases h1 : c = '\\'
  · subst h1; rfl
  · by_cases h2 : c = '"'
    · subst h2; rfl
    · by_cases h3 : c = '\n'
      · subst h3; rfl
      · rw [if_neg h1, if_neg h2]
        exact S0_ch (.inr (.inl rfl)) ⟨h2, h1, hc, h3⟩

theorem S_piece {r : Re} (h : InS r) {x : StrPiece} (hx : x.ok = true) :
    InS (ders r x.text) ∧ (x ≠ .esc '\\' → ders r x.text = S0 ∨ ders r x.text = S2) := by
  cases x with
  | ch c =>
    simp [StrPiece.ok] at hx
    simp only [StrPiece.text, ders]
    rw [S0_ch h ⟨hx.1.1.1, hx.1.1.2, hx.1.2, hx.2⟩]
    exact ⟨.inl rfl, fun _ => .inl rfl⟩
  | esc c =>
    simp [StrPiece.ok] at hx
    simp only [StrPiece.text, ders]
    rw [S0_bs h, S1_any hx]
    by_cases h1 : c = '\\'
    · subst h1; exact ⟨.inr (.inl rfl), fun h => absurd rfl h⟩
    · rw [if_neg h1]
      by_cases h2 : c = '"'
      · rw [if_pos h2]; exact ⟨.inr (.inr rfl), fun _ => .inr rfl⟩
      · rw [if_neg h2]; exact ⟨.inl rfl, fun _ => .inl rfl⟩

theorem S_pieces {r : Re} (h : InS r) {l : List StrPiece} (hl : l.all StrPiece.ok = true) (hne : l ≠ []) :
    InS (ders r (l.flatMap StrPiece.text)) ∧
      (l.getLast? ≠ some (.esc '\\') → ders r (l.flatMap StrPiece.text) = S0 ∨ ders r (l.flatMap StrPiece.text) = S2) := by
  induction l generalizing r with
  | nil => exact absurd rfl hne
  | cons x l ih =>
    simp only [List.all_cons, Bool.and_eq_true] at hl
    rw [List.flatMap_cons, ders_append]
    have h1 := S_piece h hl.1
    cases l with
    | nil => simpa [ders] using h1
    | cons y l =>
      rw [List.getLast?_cons_cons]
      exact ih h1.1 hl.2 (by simp)

theorem longest_str {l : List StrPiece} (hl : strOk l = true) (t : Str) :
    longest STRr (syms (strText l ++ t)) = some (strText l).length := by
  simp only [strOk, Bool.and_eq_true, bne_iff_ne] at hl
  have hfin : ders STRr (strText l) = .eps := by
    rw [strText, List.cons_append, ders, ders_append]
    have h0 : STRr.der (some '"') = S0 := rfl
    rw [h0]
    by_cases hne : l = []
    · subst hne; rfl
    · rcases (S_pieces (.inl rfl) hl.1 hne).2 hl.2 with h | h <;> rw [h] <;> rfl
  rw [syms_append, longest_ders hfin (longest_eps t)]
  rfl

theorem seq_set_no {x : Char} {r : Re} {t : Str} (h : NoHead (· == x) t) : longest (seq (set [x]) r) (syms t) = none := by
  refine longest_no rfl rfl fun c hc => ?_
  have := h c hc
  beta_reduce at this
  rw [der, if_neg (by simp [nullable]), der_set1, this, mkSeq_one_false]

theorem str_no {t : Str} (h : NoHead (· == '"') t) : longest STRr (syms t) = none := seq_set_no h

theorem kw_no {k : Str} {r : Re} {t : Str} (h : ¬ k <+: t) : longest (kw k r) (syms t) = none := by
  cases hl : longest (kw k r) (syms t) with
  | none => rfl
  | some n =>
    obtain ⟨t', ht, _⟩ := kw_prefix hl
    exact absurd ⟨t', ht.symm⟩ h

theorem line_no {t : Str} (h : ¬ ['/', '/'] <+: t) : longest LINE_COMMENTr (syms t) = none := kw_no h
theorem comment_no {t : Str} (h : ¬ ['/', '*'] <+: t) : longest COMMENTr (syms t) = none := kw_no h

/-! ## comments -/

/-- Inside of a line comment. -/
def L0 : Re := seq (star (non ['\r', '\n'])) (alt CRLF eof)

theorem longest_line {s eol rest : Str} (hs : s.all (fun c => c != '\r' && c != '\n') = true)
    (he : Spec.Pp.eolOk eol rest = true) :
    ∃ n, longest LINE_COMMENTr (syms ((c! "//" ++ s ++ eol) ++ rest)) = some n ∧
      (n = (c! "//" ++ s ++ eol).length ∨ rest = [] ∧ (c! "//" ++ s ++ eol).length ≤ n) := by
  have hloop : ∀ c : Char, (c ≠ '\r' ∧ c ≠ '\n') → L0.der (some c) = L0 := by
    intro c hc
    rw [der_rep (l := ['\r', '\n', '\r', '\n']) rfl (by simp [hc]) (d := 'a') (by decide)]; rfl
  have hs' : ∀ c ∈ s, c ≠ '\r' ∧ c ≠ '\n' := by simpa using hs
  have hpre : ∀ (t : Str) (n : Nat), longest L0 (syms t) = some n →
      longest LINE_COMMENTr (syms (c! "//" ++ s ++ t)) = some (2 + (s.length + n)) := by
    intro t n h
    rw [List.append_assoc, syms_append]
    have := longest_kw ['/', '/'] L0 (syms (s ++ t))
    rw [show LINE_COMMENTr = kw ['/', '/'] L0 from rfl]
    rw [show (c! "//") = ['/', '/'] from rfl, this, syms_append, longest_loop hloop hs' h]
    rfl
  rw [List.append_assoc]
  simp only [Spec.Pp.eolOk, Spec.Pp.isEol, Bool.or_eq_true, beq_iff_eq, Bool.and_eq_true] at he
  rcases he with (rfl | rfl) | ⟨rfl, rfl⟩
  · refine ⟨_, hpre (['\n'] ++ rest) 1 ?_, .inl (by simp; omega)⟩
    exact longest_step rfl (longest_eps rest)
  · refine ⟨_, hpre (['\r', '\n'] ++ rest) 2 ?_, .inl (by simp; omega)⟩
    exact longest_step rfl (longest_step rfl (longest_eps rest))
  · refine ⟨_, hpre ([] ++ []) 1 rfl, .inr ⟨rfl, by simp; omega⟩⟩

/-- Inside of a block comment. -/
def C0 : Re := seq (star (alt (non ['*']) (seq (plus (set ['*'])) (non ['*', '/'])))) (seq (plus (set ['*'])) (set ['/']))
/-- Behind a star. -/
def C1 : Re := C0.der (some '*')

theorem C0_ch {c : Char} (hc : c ≠ '*') : C0.der (some c) = C0 := by
  by_cases h : c = '/'
  · subst h; rfl
  · rw [der_rep (l := ['*', '*', '*', '*', '/', '*', '*', '/']) rfl (by simp [hc, h]) (d := 'a') (by decide)]; rfl

theorem C1_ch {c : Char} (hc : c ≠ '*') (hc' : c ≠ '/') : C1.der (some c) = C0 := by
  rw [der_rep (l := ['*', '*', '/', '*', '*', '*', '*', '/', '*', '*', '/', '*', '/']) rfl (by simp [hc, hc']) (d := 'a')
    (by decide)]; rfl

theorem noEnd_tail {c : Char} {s : Str} (h : noEnd (c :: s) = true) : noEnd s = true := by
  unfold noEnd at h
  split at h
  · exact absurd h (by decide)
  · rename_i e; cases e; exact h
  · simp_all

theorem C_ders (s : Str) : (noEnd s = true → ders C0 (s ++ ['*', '/']) = .eps) ∧
    (noEnd ('*' :: s) = true → ders C1 (s ++ ['*', '/']) = .eps) := by
  induction s with
  | nil => exact ⟨fun _ => rfl, fun _ => rfl⟩
  | cons c s ih =>
    refine ⟨fun h => ?_, fun h => ?_⟩
    · rw [List.cons_append, ders]
      by_cases hc : c = '*'
      · subst hc; exact ih.2 h
      · rw [C0_ch hc]
        exact ih.1 (noEnd_tail h)
    · rw [List.cons_append, ders]
      by_cases hc : c = '*'
      · subst hc
        rw [show C1.der (some '*') = C1 from rfl]
        exact ih.2 (noEnd_tail h)
      · by_cases hc' : c = '/'
        · subst hc'; simp [noEnd] at h
        · rw [C1_ch hc hc']
          exact ih.1 (noEnd_tail (noEnd_tail h))

theorem longest_comment {s : Str} (h : noEnd s = true) (t : Str) :
    longest COMMENTr (syms ((c! "/*" ++ s ++ c! "*/") ++ t)) = some (c! "/*" ++ s ++ c! "*/").length := by
  have : ders COMMENTr (c! "/*" ++ s ++ c! "*/") = .eps := by
    rw [List.append_assoc, ders_append]
    exact (C_ders s).1 h
  rw [syms_append, longest_ders this (longest_eps t)]
  rfl

/-! ## code -/

/-- A back-tick in front of this character is not code. -/
def btEnd (c : Char) : Bool := c != '`' && c != '"' && c != '\\'

/-- What ends code. -/
def CodeEnd (t : Str) : Prop :=
  t = [] ∨ (∃ r, t = '"' :: r) ∨ (∃ r, t = '/' :: '/' :: r) ∨ (∃ r, t = '/' :: '*' :: r) ∨
    ∃ c r, t = '`' :: c :: r ∧ btEnd c = true

theorem idFirst_ne {c : Char} (h : idFirst c = true) {d : Char} (hd : idFirst d = false) : c ≠ d := by
  rintro rfl; simp [h] at hd
theorem btEnd_first {c : Char} (h : idFirst c = true) : btEnd c = true := by
  simp [btEnd, idFirst_ne h (d := '\\') (by decide), idFirst_ne h (d := '`') (by decide), idFirst_ne h (d := '"') (by decide)]
theorem idNext_ne {c : Char} (h : idNext c = true) {d : Char} (hd : idNext d = false) : c ≠ d := by
  rintro rfl; simp [h] at hd

theorem special_ne {c : Char} (h : special c = false) : c ≠ '`' ∧ c ≠ '/' ∧ c ≠ '"' ∧ c ≠ '\\' := by
  simpa [special, and_assoc] using h

/-- A character of code is a step of its own. -/
theorem code_ch {c : Char} (h : special c = false) : codeStep.der (some c) = .eps := by
  obtain ⟨h1, h2, h3, h4⟩ := special_ne h
  by_cases a1 : c = '*'
  · subst a1; rfl
  by_cases a2 : c = ' '
  · subst a2; rfl
  by_cases a3 : c = '\t'
  · subst a3; rfl
  by_cases a4 : c = '\r'
  · subst a4; rfl
  by_cases a5 : c = '\n'
  · subst a5; rfl
  rw [der_rep (l := ['`', '/', '"', '\\', '/', '/', '*', '`', '`', '\\', '`', '`', '\\', '`', '"', '`', '"', '`', '`', '\\',
    ' ', '\t', '\r', '\n', ' ', '\t', '\r', '\n']) rfl (by simp [h1, h2, h3, h4, a1, a2, a3, a4, a5]) (d := 'a') (by decide)]
  rfl

/-- Behind the slash of a step. -/
def K1 : Re := non ['/', '*', '`']
/-- Inside of an escaped identifier. -/
def K2 : Re := seq (star (non [' ', '\t', '\r', '\n'])) (alt (set [' ', '\t', '\r', '\n']) eof)

theorem code_slash : codeStep.der (some '/') = K1 := rfl
theorem code_bs : codeStep.der (some '\\') = K2 := rfl
theorem code_quote : codeStep.der (some '"') = .empty := rfl

theorem K1_ch {c : Char} (h : special c = false) (h' : c ≠ '*') : K1.der (some c) = .eps := by
  obtain ⟨h1, h2, h3, h4⟩ := special_ne h
  rw [der_rep (l := ['/', '*', '`']) rfl (by simp [h1, h2, h']) (d := 'a') (by decide)]; rfl

theorem K2_ch {c : Char} (h : white c = false) : K2.der (some c) = K2 := by
  simp [white, and_assoc] at h
  rw [der_rep (l := [' ', '\t', '\r', '\n', ' ', '\t', '\r', '\n']) rfl (by simp [h]) (d := 'a') (by decide)]; rfl

theorem K2_ws {c : Char} (h : white c = true) : K2.der (some c) = .eps := by
  simp [white, or_assoc] at h
  rcases h with rfl | rfl | rfl | rfl <;> rfl

theorem mkSeq_eps (r : Re) : mkSeq .eps r = r := by cases r <;> rfl
theorem mkAlt_empty (r : Re) : mkAlt r .empty = r := by cases r <;> rfl

theorem der_seq {a b : Re} (h : a.nullable = false) (c : Sym) : (seq a b).der c = mkSeq (a.der c) b := by
  rw [der, h]; rfl

theorem code_not : codeStep.nullable = false := rfl
theorem K1_not : K1.nullable = false := rfl
theorem K2_not : K2.nullable = false := rfl

theorem mkSeq_K1 {F : Re} (h : F ≠ .empty) : mkSeq K1 F = seq K1 F := by rw [K1, mkSeq]; exact if_neg h; all_goals simp
theorem mkSeq_K2 {F : Re} (h : F ≠ .empty) : mkSeq K2 F = seq K2 F := by rw [K2, mkSeq]; exact if_neg h; all_goals simp

/-- A piece of code is one step. -/
theorem code_piece {F : Re} (hF : F ≠ .empty) {x : CodePiece} (hx : x.ok = true) :
    ders (seq codeStep F) x.text = F ∧
      ∀ s, longest F s = none → longest (seq codeStep F) (x.text.map some ++ s) = none := by
  cases x with
  | ch c =>
    simp [CodePiece.ok] at hx
    have h : (seq codeStep F).der (some c) = F := by rw [der_seq code_not, code_ch hx, mkSeq_eps]
    refine ⟨by simp [CodePiece.text, ders, h], fun s hs => ?_⟩
    simp only [CodePiece.text, List.map_cons, List.map_nil, List.cons_append, List.nil_append]
    rw [longest_step_none h hs]; rfl
  | slash c =>
    simp [CodePiece.ok] at hx
    have h : (seq codeStep F).der (some '/') = seq K1 F := by rw [der_seq code_not, code_slash, mkSeq_K1 hF]
    have h' : (seq K1 F).der (some c) = F := by rw [der_seq K1_not, K1_ch hx.1 hx.2, mkSeq_eps]
    refine ⟨by simp [CodePiece.text, ders, h, h'], fun s hs => ?_⟩
    simp only [CodePiece.text, List.map_cons, List.map_nil, List.cons_append, List.nil_append]
    rw [longest_step_none h (by rw [longest_step_none h' hs]; rfl)]; rfl
  | esc t w =>
    simp [CodePiece.ok] at hx
    have h : (seq codeStep F).der (some '\\') = seq K2 F := by rw [der_seq code_not, code_bs, mkSeq_K2 hF]
    have h1 : ∀ c, white c = false → (seq K2 F).der (some c) = seq K2 F := by
      intro c hc; rw [der_seq K2_not, K2_ch hc, mkSeq_K2 hF]
    have h2 : (seq K2 F).der (some w) = F := by rw [der_seq K2_not, K2_ws hx.2, mkSeq_eps]
    refine ⟨?_, fun s hs => ?_⟩
    · rw [CodePiece.text, List.cons_append, ders, h]
      have : ∀ t : Str, (∀ c ∈ t, white c = false) → ders (seq K2 F) (t ++ [w]) = F := by
        intro t ht
        induction t with
        | nil => simp [ders, h2]
        | cons c t ih =>
          rw [List.cons_append, ders, h1 c (ht c (by simp))]
          exact ih fun d hd => ht d (by simp [hd])
      exact this t hx.1
    · simp only [CodePiece.text, List.map_cons, List.map_append, List.map_nil, List.cons_append, List.append_assoc]
      rw [longest_step_none h]
      · rfl
      · rw [longest_loop_none (p := fun c => white c = false) h1 hx.1 (by simp [nullable, K2_not])]
        rw [List.nil_append, longest_step_none h2 hs]; simp [nullable, K2_not]

/-- Loop of code. -/
def K : Re := star codeStep
/-- Loop of code and the end of a code token that is followed by a directive. -/
def T : Re := seq K (lit ['/', '`'])

theorem K_der (c : Sym) : K.der c = (seq codeStep K).der c := by rw [der_seq code_not]; rfl

theorem K_piece {x : CodePiece} (hx : x.ok = true) : ders K x.text = K := by
  have h := (code_piece (F := K) (by simp [K]) hx).1
  have hne : x.text ≠ [] := by cases x <;> simp [CodePiece.text]
  cases ht : x.text with
  | nil => exact absurd ht hne
  | cons c t =>
    rw [ht] at h
    rw [ders] at h ⊢
    rw [K_der]; exact h

theorem lit_der {c : Char} (h : c ≠ '/') : (lit ['/', '`']).der (some c) = .empty := by
  rw [lit, der_seq rfl, der_set1]
  · simp [h, one, mkSeq]
  · simp

theorem T_der {c : Char} (h : c ≠ '/') : T.der (some c) = mkSeq (mkSeq (codeStep.der (some c)) K) (lit ['/', '`']) := by
  rw [T, der, lit_der h, mkAlt_empty, if_pos (show K.nullable = true from rfl), K, der]

theorem T_der_slash : T.der (some '/') = alt (seq (seq K1 K) (lit ['/', '`'])) (set ['`']) := rfl

theorem T_piece {x : CodePiece} (hx : x.ok = true) {s : List Sym} (hs : longest T s = none) :
    longest T (x.text.map some ++ s) = none := by
  have hK : mkSeq K (lit ['/', '`']) = T := rfl
  cases x with
  | ch c =>
    simp [CodePiece.ok] at hx
    have h : T.der (some c) = T := by rw [T_der (special_ne hx).2.1, code_ch hx, mkSeq_eps, hK]
    simp only [CodePiece.text, List.map_cons, List.map_nil, List.cons_append, List.nil_append]
    rw [longest_step_none h hs]; rfl
  | slash c =>
    simp [CodePiece.ok] at hx
    have h' : (alt (seq (seq K1 K) (lit ['/', '`'])) (set ['`'])).der (some c) = T := by
      rw [der, der_seq rfl, der_seq rfl, K1_ch hx.1 hx.2, mkSeq_eps, hK, der_set1]
      simp [(special_ne hx.1).1, one, mkAlt_empty]
    simp only [CodePiece.text, List.map_cons, List.map_nil, List.cons_append, List.nil_append]
    rw [longest_step_none T_der_slash (by rw [longest_step_none h' hs]; rfl)]; rfl
  | esc t w =>
    simp [CodePiece.ok] at hx
    have h : T.der (some '\\') = seq (seq K2 K) (lit ['/', '`']) := rfl
    have h1 : ∀ c, white c = false → (seq (seq K2 K) (lit ['/', '`'])).der (some c) = seq (seq K2 K) (lit ['/', '`']) := by
      intro c hc; rw [der_seq rfl, der_seq rfl, K2_ch hc]; rfl
    have h2 : (seq (seq K2 K) (lit ['/', '`'])).der (some w) = T := by
      rw [der_seq rfl, der_seq rfl, K2_ws hx.2, mkSeq_eps, hK]
    simp only [CodePiece.text, List.map_cons, List.map_append, List.map_nil, List.cons_append, List.append_assoc]
    rw [longest_step_none h]
    · rfl
    · rw [longest_loop_none (p := fun c => white c = false) h1 hx.1 rfl]
      rw [List.nil_append, longest_step_none h2 hs]; rfl

theorem code_bt {c : Char} (h : btEnd c = true) : (codeStep.der (some '`')).der (some c) = .empty := by
  simp only [btEnd, Bool.and_eq_true, bne_iff_ne, ne_eq] at h
  rw [der_rep (l := ['\\', '`', '`', '\\', '`', '"', '"', '`']) rfl (d := 'a') (by simp [h]) (by decide)]
  rfl

theorem seq_code_end {F : Re} (hF : F ≠ .empty) {t : Str} (h : CodeEnd t) : longest (seq codeStep F) (syms t) = none := by
  rcases h with rfl | ⟨r, rfl⟩ | ⟨r, rfl⟩ | ⟨r, rfl⟩ | ⟨c, r, rfl, hc⟩
  · rw [syms_nil, longest_dead (by rw [der_seq code_not]; rfl)]; rfl
  · rw [syms_cons, longest_dead (by rw [der_seq code_not, code_quote]; rfl)]; rfl
  · rw [syms_cons, longest_step_none (by rw [der_seq code_not, code_slash, mkSeq_K1 hF])]
    · rfl
    · rw [syms_cons, longest_dead (by rw [der_seq K1_not]; rfl)]; rfl
  · rw [syms_cons, longest_step_none (by rw [der_seq code_not, code_slash, mkSeq_K1 hF])]
    · rfl
    · rw [syms_cons, longest_dead (by rw [der_seq K1_not]; rfl)]; rfl
  · rw [syms_cons, syms_cons, longest_step_none (r' := seq (codeStep.der (some '`')) F)]
    · rfl
    · rw [der_seq code_not]
      exact if_neg hF
    · rw [longest_dead (by rw [der_seq rfl, code_bt hc]; rfl)]; rfl

theorem K_end {t : Str} (h : CodeEnd t) : longest K (syms t) = some 0 := by
  have h1 := seq_code_end (F := K) (by simp [K]) h
  rw [longest_none_iff] at h1
  rw [longest_some_iff]
  refine ⟨by simp, nullable_iff.1 rfl, fun m hm hm' hM => ?_⟩
  refine h1 m ?_
  cases hs : (syms t).take m with
  | nil =>
    rw [List.take_eq_nil_iff] at hs
    rcases hs with hs | hs
    · omega
    · simp [syms] at hs
  | cons c s =>
    rw [hs] at hM
    rw [← matches_der] at hM ⊢
    rwa [← K_der]

theorem T_end {t : Str} (h : CodeEnd t) : longest T (syms t) = none := by
  rcases h with rfl | ⟨r, rfl⟩ | ⟨r, rfl⟩ | ⟨r, rfl⟩ | ⟨c, r, rfl, hc⟩
  · rfl
  · rw [syms_cons, longest_dead rfl]; rfl
  · rw [syms_cons, longest_step_none T_der_slash]
    · rfl
    · rw [syms_cons, longest_dead rfl]; rfl
  · rw [syms_cons, longest_step_none T_der_slash]
    · rfl
    · rw [syms_cons, longest_dead rfl]; rfl
  · rw [syms_cons, syms_cons, longest_step_none (r' := seq (seq (codeStep.der (some '`')) K) (lit ['/', '`'])) rfl]
    · rfl
    · rw [longest_dead (by rw [der_seq rfl, der_seq rfl, code_bt hc]; rfl)]; rfl

theorem longest_code {l : List CodePiece} (hl : l.all CodePiece.ok = true) (hne : l ≠ []) {t : Str} (ht : CodeEnd t) :
    longest (plus codeStep) (syms (l.flatMap CodePiece.text ++ t)) = some (l.flatMap CodePiece.text).length ∧
    longest (seq codeStep (seq (star codeStep) (lit ['/', '`']))) (syms (l.flatMap CodePiece.text ++ t)) = none := by
  cases l with
  | nil => exact absurd rfl hne
  | cons x l =>
    simp only [List.all_cons, Bool.and_eq_true] at hl
    have hK : ∀ l : List CodePiece, l.all CodePiece.ok = true → ders K (l.flatMap CodePiece.text) = K := by
      intro l hl
      induction l with
      | nil => rfl
      | cons y l ih =>
        simp only [List.all_cons, Bool.and_eq_true] at hl
        rw [List.flatMap_cons, ders_append, K_piece hl.1, ih hl.2]
    have hT : ∀ l : List CodePiece, l.all CodePiece.ok = true →
        longest T ((l.flatMap CodePiece.text).map some ++ syms t) = none := by
      intro l hl
      induction l with
      | nil => exact T_end ht
      | cons y l ih =>
        simp only [List.all_cons, Bool.and_eq_true] at hl
        rw [List.flatMap_cons, List.map_append, List.append_assoc]
        exact T_piece hl.1 (ih hl.2)
    rw [syms_append]
    constructor
    · rw [longest_ders (r' := K) _ (K_end ht)]
      · simp
      · rw [List.flatMap_cons, ders_append, plus, show star codeStep = K from rfl,
          (code_piece (by simp [K]) hl.1).1, hK l hl.2]
    · rw [List.flatMap_cons, List.map_append, List.append_assoc]
      exact (code_piece (F := T) (by simp [T]) hl.1).2 _ (hT l hl.2)

end Verif.Pp
