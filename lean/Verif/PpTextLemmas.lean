import Verif.PpRead
import Verif.PpStackLemmas
import Verif.Props.StrUtils
/-!
# Texts which are rejected, and macro texts
-/
namespace Verif.Pp
open Verif.Antlr Verif.Antlr.Re
open Verif.Spec.Pp

/-! ## a back-tick which starts nothing -/

theorem pick_none {α : Type} {re : α → Re} {l : List α} {s : List Sym} (h : ∀ q ∈ l, (re q).longest s = none) :
    pick re l s = none := by
  induction l with
  | nil => rfl
  | cons a l ih =>
    rw [pick, h a (by simp), ih (fun q hq => h q (by simp [hq]))]

/-- A character which can follow a back-tick in some text. -/
def btStart (c : Char) : Bool := idFirst c || c == '`' || c == '"' || c == '\\' || c == '/'

theorem directive_stray {c : Char} (hc : btStart c = false) (rest : Str) :
    pick Rule.re directiveRules (syms (c :: rest)) = none := by
  simp only [btStart, Bool.or_eq_false_iff, beq_eq_false_iff_ne] at hc
  obtain ⟨⟨⟨⟨h1, h2⟩, h3⟩, h4⟩, h5⟩ := hc
  refine pick_none fun q hq => ?_
  obtain ⟨j, hj⟩ := List.mem_iff_getElem?.1 hq
  rcases directive_get hj with ⟨_, e⟩ | ⟨_, e⟩ | ⟨_, e⟩ | ⟨p, hp, _, e⟩ | ⟨_, e⟩ | ⟨_, e⟩
  · rw [e]; exact str_no (NoHead_cons.2 (by simpa using h3))
  · rw [e]; exact line_no (by simp [Ne.symm h5])
  · rw [e]; exact comment_no (by simp [Ne.symm h5])
  · rw [e]
    refine kw_no fun hpre => ?_
    have hm : p.1 ∈ keywords := by
      rw [← kwList_keywords]
      exact List.mem_map_of_mem (List.mem_of_getElem? hp)
    have hn := keywords_name _ hm
    cases hk : p.1 with
    | nil => rw [hk] at hn; simp [isName] at hn
    | cons d k =>
      rw [hk] at hn hpre
      simp only [isName, Bool.and_eq_true] at hn
      rw [List.cons_prefix_cons] at hpre
      rw [hpre.1, h1] at hn
      simp at hn
  · rw [e, CALLr]
    have : (seqs [F_ID, star F_WS, set ['(']]).der (some c) = .empty := by
      have hd : F_ID.der (some c) = .empty := by
        rw [F_ID, der_seq rfl, der_idFirst, h1]; rfl
      show (seq F_ID (seqs [star F_WS, set ['(']])).der (some c) = .empty
      rw [der_seq rfl, hd]; rfl
    rw [syms_cons, longest_dead this]; rfl
  · rw [e]; exact id_no (NoHead_cons.2 h1)

/-- Behind any covered text. -/
theorem parse_stray {lang : Nat} {is : Items} {c : Char} {rest : Str} (h : is.ok lang ('`' :: c :: rest) = true) (hc : btStart c = false) :
    parseText lang (is.text ++ '`' :: c :: rest) = none := by
  have hb : btEnd c = true := by
    simp only [btStart, Bool.or_eq_false_iff, beq_eq_false_iff_ne] at hc
    simp [btEnd, hc]
  obtain ⟨lp, clp, m, ts, ps, h1, -⟩ := items_reads (lang := lang) (input := is.text ++ '`' :: c :: rest) is (1, 0) 0
    ('`' :: c :: rest) h (.inr (.inr (.inr (.inr ⟨c, rest, rfl, hb⟩)))) (by simp) false false St.init.meta'
  have h2 : ∀ q j, lexR ⟨.default, [], lp, clp, m⟩ q j ('`' :: c :: rest) = none := by
    intro q j
    have := lexR_tok (st := ⟨.default, [], lp, clp, m⟩) (pos := q) (idx := j) (t := ['`']) (rest := c :: rest) (by simp)
      (pick_bt' hb rest) (.inl rfl) rfl
    rw [List.singleton_append] at this
    rw [this, lexR_none (s := c :: rest) (by simp)]
    · rfl
    · exact directive_stray hc rest
  have : lex (is.text ++ '`' :: c :: rest) = none := by
    show lexR St.init (1, 0) 0 _ = _
    rw [show St.init = ⟨.default, [], false, false, St.init.meta'⟩ from rfl, h1, h2]; rfl
  simp [parseText, this]

/-! ## conditionals which are not closed or not opened -/

/-- `` `elsif ``, `` `else `` or `` `endif `` without `` `ifdef ``. -/
theorem parse_unopened {lang : Nat} {is : Items} {r : Rest} (h : is.ok lang r.text = true) (hr : r.ok lang [] = true) :
    parseText lang (is.text ++ r.text) = none := by
  obtain ⟨lp, clp, m, ts, ps, h1, h2, _, h4⟩ := items_reads (lang := lang) (input := is.text ++ r.text) is (1, 0) 0 r.text h
    (by simpa using rest_end r []) (by simp) false false St.init.meta'
  obtain ⟨lp', clp', m', ts', ps', k1, k2, ⟨t0, r0, e0, _, k3⟩, _⟩ := rest_reads (lang := lang) (input := is.text ++ r.text) r
    (advance (1, 0) is.text) (0 + is.text.length) [] hr (by simp) lp clp m
  have hl := Lexes.trans (rest := []) (by simpa using h1) k1
  unfold Lexes at hl
  rw [List.append_nil, lexR_nil] at hl
  have hlex : lex (is.text ++ r.text) = some (ts ++ ts') := by
    show lexR St.init (1, 0) 0 _ = _
    rw [show St.init = ⟨.default, [], false, false, St.init.meta'⟩ from rfl, hl]; simp
  have hg : group [] (ts ++ ts') = ps ++ (t0 :: (r0 ++ group [] [])) := by
    rw [h2, ← List.append_nil ts', k2, e0]; simp
  have hne : r.text ≠ [] := by obtain ⟨c, u, h, _⟩ := rest_bt r; rw [h]; simp
  have := h4 (t0 :: (r0 ++ group [] [])) 1 .nil _ (fun h => absurd h hne) (textStar_stop (Nat.le_refl 1) (.inl k3))
  simp only [parseText, Option.bind_eq_bind, hlex, Option.bind_some, hg, file]
  rw [textStar_mono (by simp; omega) this]
  rcases k3 with e | e | e <;> simp [nextTy, e]

/-! ## macro texts -/

/-- `\` and a newline replaced by the newline. -/
def unEsc : Str → Str
  | [] => []
  | '\\' :: '\n' :: r => '\n' :: unEsc r
  | c :: r => c :: unEsc r

theorem unEsc_cons {c : Char} {r : Str} (h : ¬ (c = '\\' ∧ r.head? = some '\n')) : unEsc (c :: r) = c :: unEsc r := by
  rw [unEsc]
  rintro r' rfl rfl
  exact h ⟨rfl, rfl⟩

theorem Replaced_cons {s r : Str} {c : Char} {t t' : Str} (hp : ¬ s <+: c :: t) (h : Spec.Replaced s r t t') :
    Spec.Replaced s r (c :: t) (c :: t') := by
  cases h with
  | done _ h =>
    refine .done _ fun hi => ?_
    rcases List.infix_cons_iff.1 hi with h1 | h1
    · exact hp h1
    · exact h h1
  | step pre post post' hm h =>
    refine .step (c :: pre) post post' ?_ h
    intro u v e
    cases u with
    | nil => exact absurd (by rw [List.nil_append] at e; simp only [List.cons_append] at e; rw [e]; exact List.prefix_append s v) hp
    | cons d u =>
      simp only [List.cons_append, List.cons.injEq] at e
      have := hm u v e.2
      simp; exact this

theorem unEsc_replaced (s : Str) : Spec.Replaced ['\\', '\n'] ['\n'] s (unEsc s) := by
  induction s using unEsc.induct with
  | case1 => exact .done _ (by simp)
  | case2 r ih => exact .step [] r (unEsc r) (by simp) ih
  | case3 c r h ih =>
    rw [unEsc_cons]
    · refine Replaced_cons ?_ ih
      intro hp
      cases r with
      | nil => simp at hp
      | cons d r =>
        simp at hp
        exact h r hp.1.symm (by rw [hp.2])
    · rintro ⟨rfl, hr⟩
      cases r with
      | nil => simp at hr
      | cons d r => simp at hr; exact h r rfl (by rw [hr])

theorem replace_unEsc (s : Str) : replaceSubstring s ['\\', '\n'] ['\n'] = .ok (unEsc s) :=
  (C24_replace_substring_exact _ _ _ _ (by simp)).2 (unEsc_replaced s)

/-- A piece with another text for escaped line ends. -/
def pieceWith (e : Str) : BodyPiece → Str
  | .plain s => s
  | .str l => strText l
  | .esc => e

theorem unEsc_plain {s : Str} (h : '\\' ∉ s) (t : Str) : unEsc (s ++ t) = s ++ unEsc t := by
  induction s with
  | nil => rfl
  | cons c s ih =>
    simp only [List.mem_cons, not_or] at h
    rw [List.cons_append, unEsc_cons (by rintro ⟨rfl, _⟩; exact h.1 rfl), ih h.2]; rfl

/-- A piece of a string which is not an escaped line end. -/
def noNl (l : List StrPiece) : Bool := l.all (fun x => x != .esc '\n')

theorem unEsc_str {l : List StrPiece} (hl : l.all StrPiece.ok = true) (hn : noNl l = true) (t : Str) :
    unEsc (l.flatMap StrPiece.text ++ '"' :: t) = l.flatMap StrPiece.text ++ unEsc ('"' :: t) := by
  induction l with
  | nil => rfl
  | cons x l ih =>
    simp only [List.all_cons, Bool.and_eq_true, noNl] at hl hn
    have ih := ih hl.2 hn.2
    have hhead : (l.flatMap StrPiece.text ++ '"' :: t).head? ≠ some '\n' := by
      cases l with
      | nil => simp
      | cons y l =>
        have hy := hl.2
        simp only [List.all_cons, Bool.and_eq_true] at hy
        cases y with
        | ch c => simp [StrPiece.text, StrPiece.ok] at hy ⊢; exact hy.1.2
        | esc c => simp [StrPiece.text]
    cases x with
    | ch c =>
      simp only [StrPiece.ok, Bool.and_eq_true, bne_iff_ne] at hl
      simp only [List.flatMap_cons, StrPiece.text, List.cons_append, List.nil_append]
      rw [unEsc_cons (by rintro ⟨rfl, _⟩; exact hl.1.1.1.2 rfl), ih]
    | esc c =>
      have hc : c ≠ '\n' := by
        have := hn.1
        simpa using this
      simp only [List.flatMap_cons, StrPiece.text, List.cons_append, List.nil_append]
      rw [unEsc_cons (by rintro ⟨_, h⟩; simp at h; exact hc h), unEsc_cons (by rintro ⟨_, h⟩; exact hhead h), ih]

/-- Pieces whose strings have no escaped line ends. -/
def pieceNoNl : BodyPiece → Bool
  | .str l => noNl l
  | _ => true

theorem unEsc_pieces {e : Str} (he : e = ['\n'] ∨ e = ['\\', '\n']) {l : List BodyPiece}
    (hl : ∀ x ∈ l, (match x with
      | .plain s => '\\' ∉ s
      | .str p => p.all StrPiece.ok = true
      | .esc => True)) (hn : l.all pieceNoNl = true) :
    unEsc (l.flatMap (pieceWith e)) = l.flatMap (pieceWith ['\n']) := by
  induction l with
  | nil => rfl
  | cons x l ih =>
    simp only [List.all_cons, Bool.and_eq_true] at hn
    have ih := ih (fun x hx => hl x (by simp [hx])) hn.2
    have hx := hl x (by simp)
    rw [List.flatMap_cons, List.flatMap_cons]
    cases x with
    | plain s => simp only [pieceWith]; rw [unEsc_plain hx, ih]
    | str p =>
      simp only [pieceWith, strText, List.cons_append, List.append_assoc, List.nil_append]
      rw [unEsc_cons (by simp), unEsc_str hx hn.1, unEsc_cons (by simp), ih]
    | esc =>
      simp only [pieceWith]
      rcases he with rfl | rfl
      · rw [List.singleton_append, unEsc_cons (by simp), ih]
        try rfl
      · show unEsc ('\\' :: '\n' :: _) = _
        rw [unEsc]
        exact congrArg ('\n' :: ·) ih

theorem removeComment_idem {toks : List CommentTok} (ht : ∀ t ∈ toks, t = ⟨true, '\\', ['\n']⟩) {s : Str} (hs : unEsc s = s) :
    removeComment toks s = .ok s := by
  induction toks with
  | nil => rfl
  | cons t toks ih =>
    rw [removeComment, ht t (by simp)]
    simp only [if_true]
    rw [replace_unEsc, hs]
    exact ih (fun t h => ht t (by simp [h]))

/-- Removal of the escapes of a macro text. -/
theorem removeComment_body {l : List BodyPiece} (hl : ∀ x ∈ l, (match x with
      | .plain s => '\\' ∉ s
      | .str p => p.all StrPiece.ok = true
      | .esc => True)) (hn : l.all pieceNoNl = true) :
    removeComment ((l.filter (· == .esc)).map fun _ => ⟨true, '\\', ['\n']⟩) (bodyText l) = .ok (l.flatMap (pieceWith ['\n'])) := by
  have e1 : bodyText l = l.flatMap (pieceWith ['\\', '\n']) := by
    unfold bodyText
    exact List.flatMap_congr fun x _ => by cases x <;> rfl
  have h1 := unEsc_pieces (.inr rfl) hl hn
  have h2 := unEsc_pieces (.inl rfl) hl hn
  by_cases hf : l.filter (· == .esc) = []
  · rw [hf]
    simp only [List.map_nil, removeComment]
    rw [List.filter_eq_nil_iff] at hf
    congr 1
    unfold bodyText
    refine List.flatMap_congr fun x hx => ?_
    cases x with
    | esc => exact absurd rfl (hf _ hx)
    | _ => rfl
  · cases hk : l.filter (· == .esc) with
    | nil => exact absurd hk hf
    | cons x k =>
      rw [List.map_cons, removeComment]
      simp only [if_true]
      rw [replace_unEsc, e1, h1]
      exact removeComment_idem (by simp) h2

end Verif.Pp
