import Verif.StrUtilsLemmas
/-! # Property theorems C22, C23, C24 (text helpers of the preprocessor) -/
namespace Verif
open Verif.Spec

/-! ## C22 -/

/-- C22: for every text the in-place editing loop computes what the one-pass specification says: the text with
`` `" `` replaced by quotes and with newlines in such strings escaped, or a `ParseException` iff the last
`` `" `` string is unterminated. In particular it always terminates and never reads out of range. -/
theorem C22_unescape_dblquotes (s : Str) :
    unescapeStringDblquotes s =
      match Spec.unescape false false s with
      | some t => .ok t
      | none => .error (.parse (c! "Unfinished `\" string")) := by
  have := (unescapeLoop_spec s.length).1 (s.length + 1) [] s rfl (by omega)
  simp only [List.nil_append, List.length_nil] at this
  unfold unescapeStringDblquotes
  rw [this]
  simp only [lastBs, List.getLast?_nil]
  cases Spec.unescape false false s <;> simp [unescRes]

/-- C22: text without `` `" `` is not changed (whatever else it contains: newlines, quotes, back-ticks). -/
theorem C22_no_marker (s : Str) (h : ¬ ['`', '"'] <:+: s) : unescapeStringDblquotes s = .ok s := by
  have key : ∀ (s : Str) (b : Bool), ¬ ['`', '"'] <:+: s → Spec.unescape false b s = some s := by
    intro s
    induction s with
    | nil => intro b _; simp [Spec.unescape]
    | cons c r ih =>
      intro b h
      rw [unescape_cons_of_not]
      · simp only [Bool.false_eq_true, false_and, and_false, if_false]
        rw [ih _ (fun hc => h (hc.trans (List.suffix_cons c r).isInfix))]; simp
      · rintro ⟨rfl, h2, -⟩
        cases r with
        | nil => simp at h2
        | cons y ys => simp at h2; subst h2; exact h ⟨[], ys, rfl⟩
  rw [C22_unescape_dblquotes, key s false h]

/-- C22: a string `` `"mid`" `` on one line without back-ticks, backslashes: exactly the two back-ticks disappear. -/
theorem C22_simple_string (pre mid post : Str) (hpre : '`' ∉ pre) (hpb : pre.getLast? ≠ some '\\')
    (hmid : '`' ∉ mid) (hmb : '\\' ∉ mid) (hnl : '\n' ∉ mid) (hpost : '`' ∉ post) :
    unescapeStringDblquotes (pre ++ ['`', '"'] ++ mid ++ ['`', '"'] ++ post)
      = .ok (pre ++ ['"'] ++ mid ++ ['"'] ++ post) := by
  have hpass : ∀ (s rest : Str) (i b : Bool), '`' ∉ s → (i = true → '\n' ∉ s) →
      Spec.unescape i b (s ++ rest) = (Spec.unescape i (lastBs b s) rest).map (s ++ ·) := by
    intro s
    induction s with
    | nil => intro rest i b _ _; simp [lastBs]
    | cons c r ih =>
      intro rest i b h h2
      simp only [List.mem_cons, not_or] at h
      rw [List.cons_append, unescape_cons_of_not (fun hc => h.1 hc.1.symm), if_neg]
      · rw [ih _ _ _ h.2 (fun hi hc => h2 hi (List.mem_cons_of_mem _ hc))]
        have : lastBs (decide (c = '\\')) r = lastBs b (c :: r) := by
          unfold lastBs
          cases r with
          | nil => simp
          | cons y ys => rw [List.getLast?_cons_cons, List.getLast?_cons]
        rw [this]
        simp [Function.comp_def]
      · rintro ⟨rfl, hi, -⟩; exact h2 hi (by simp)
  rw [C22_unescape_dblquotes]
  have e : pre ++ ['`', '"'] ++ mid ++ ['`', '"'] ++ post = pre ++ ('`' :: '"' :: (mid ++ ('`' :: '"' :: (post ++ [])))) := by simp
  have l1 : lastBs false pre = false := by
    unfold lastBs
    cases h : pre.getLast? with
    | none => rfl
    | some c => rw [h] at hpb; simpa using hpb
  have l2 : lastBs false mid = false := by
    unfold lastBs
    cases h : mid.getLast? with
    | none => rfl
    | some c =>
      have : c ∈ mid := List.mem_of_getLast? h
      simp; rintro rfl; exact hmb this
  have mk : ∀ i r, Spec.unescape i false ('`' :: '"' :: r) = (Spec.unescape (!i) false r).map ('"' :: ·) := by
    intro i r; rw [Spec.unescape]; simp
  rw [e, hpass pre _ _ _ hpre (by simp), l1, mk, hpass mid _ _ _ hmid (by simp [hnl]), Bool.not_false, l2, mk,
    hpass post _ _ _ hpost (by simp)]
  simp [Spec.unescape]

/-- The hypotheses of `C22_simple_string` hold for a non-trivial text. -/
example : unescapeStringDblquotes (c! "x=`\"hi there`\";\n") = .ok (c! "x=\"hi there\";\n") :=
  C22_simple_string (c! "x=") (c! "hi there") (c! ";\n") (by decide) (by decide) (by decide) (by decide)
    (by decide) (by decide)
/-- Newlines in the string are escaped once, an escaped `` \`" `` is not a delimiter. -/
example : unescapeStringDblquotes (c! "`\"a\nb\\\nc\\`\"`\"") = .ok (c! "\"a\\\nb\\\nc\\`\"\"") := by
  rw [C22_unescape_dblquotes]; decide
example : unescapeStringDblquotes (c! "`\"a") = .error (.parse (c! "Unfinished `\" string")) := by
  rw [C22_unescape_dblquotes]; decide

/-! ## C23 -/

/-- C23: the trimmed text is what remains between a prefix and a suffix of blanks, it neither starts nor ends
with a blank. -/
theorem C23_trim (s chars : Str) :
    ∃ pre post, s = pre ++ trim s chars ++ post ∧ (∀ c ∈ pre, c ∈ chars) ∧ (∀ c ∈ post, c ∈ chars) ∧
      (∀ c, (trim s chars).head? = some c → c ∉ chars) ∧ (∀ c, (trim s chars).getLast? = some c → c ∉ chars) :=
  trim_decomp s chars

/-- C23: uniqueness form. Whatever blanks surround a text that neither starts nor ends with a blank, trimming gives
that text. -/
theorem C23_trim_unique (pre m post chars : Str) (h1 : ∀ c ∈ pre, c ∈ chars) (h2 : ∀ c ∈ post, c ∈ chars)
    (h3 : ∀ c, m.head? = some c → c ∉ chars) (h4 : ∀ c, m.getLast? = some c → c ∉ chars) :
    trim (pre ++ m ++ post) chars = m := by
  have dw : ∀ (p q : Str), (∀ c ∈ p, c ∈ chars) → (∀ c, q.head? = some c → c ∉ chars) →
      (p ++ q).dropWhile (fun c => decide (c ∈ chars)) = q := by
    intro p q hp hq
    induction p with
    | nil =>
      cases q with
      | nil => rfl
      | cons a as => simp [hq a rfl]
    | cons a as ih =>
      simp only [List.cons_append, List.dropWhile_cons]
      rw [if_pos (by simpa using hp a (by simp))]
      exact ih (fun c hc => hp c (List.mem_cons_of_mem _ hc))
  rw [trim, rtrim_eq, ltrim_eq]
  cases m with
  | nil =>
    have : (pre ++ [] ++ post).dropWhile (fun c => decide (c ∈ chars)) = [] := by
      have := dw (pre ++ post) [] (by simp; rintro c (h | h); exacts [h1 c h, h2 c h]) (by simp)
      simpa using this
    rw [this]; rfl
  | cons a as =>
    rw [List.append_assoc, dw pre _ h1 (by simpa using h3), List.reverse_append,
      dw post.reverse _ (by simpa using h2) (by rw [List.head?_reverse]; exact h4)]
    simp

/-- C23: trimming is idempotent. -/
theorem C23_trim_idem (s chars : Str) : trim (trim s chars) chars = trim s chars := by
  obtain ⟨_, _, -, -, -, h4, h5⟩ := trim_decomp s chars
  simpa using C23_trim_unique [] (trim s chars) [] chars (by simp) (by simp) h4 h5

/-- C23 for right trimming (macro bodies): only a suffix of blanks is removed. -/
theorem C23_rtrim (m post chars : Str) (h2 : ∀ c ∈ post, c ∈ chars)
    (h4 : ∀ c, m.getLast? = some c → c ∉ chars) : rtrim (m ++ post) chars = m := by
  rw [rtrim_eq, List.reverse_append, List.dropWhile_append_of_pos (by simpa using h2)]
  cases hr : m.reverse with
  | nil => simpa using hr.symm
  | cons a as =>
    have : a ∉ chars := h4 a (by rw [← List.head?_reverse, hr]; rfl)
    rw [List.dropWhile_cons, if_neg (by simpa using this), ← hr, List.reverse_reverse]

example : trim (c! " \t a b\n ") wsChars = (c! "a b") :=
  C23_trim_unique (c! " \t ") (c! "a b") (c! "\n ") wsChars (by decide) (by decide) (by simp; decide) (by simp; decide)
example : trim (c! " \n ") wsChars = [] := by decide

/-! ## C24 -/

/-- C24: for a non-empty marker the loop terminates and replaces exactly the left-to-right non-overlapping
occurrences. -/
theorem C24_replace_substring (str search repl : Str) (hs : search ≠ []) :
    ∃ r, replaceSubstring str search repl = .ok r ∧ Replaced search repl str r := by
  simpa [replaceSubstring] using replaceLoop_spec (repl := repl) hs (str.length + 1) [] str (by omega)

/-- C24: the specification determines the result, so the code computes the only correct result. -/
theorem C24_replace_substring_exact (str search repl r : Str) (hs : search ≠ []) :
    replaceSubstring str search repl = .ok r ↔ Replaced search repl str r := by
  obtain ⟨r', h1, h2⟩ := C24_replace_substring str search repl hs
  rw [h1]
  constructor
  · intro h; simp at h; exact h ▸ h2
  · intro h; rw [h2.unique h]

/-- C24: after removing a marker by the empty text nothing but marker characters is lost; without a marker the
text is unchanged. -/
theorem C24_no_marker (str search repl : Str) (hs : search ≠ []) (h : ¬ search <:+: str) :
    replaceSubstring str search repl = .ok str :=
  (C24_replace_substring_exact str search repl str hs).2 (.done _ h)

/-- The precondition "non-empty marker" is needed: with an empty marker the C++ loop
never ends (no amount of fuel suffices). -/
theorem C24_empty_marker_diverges (str repl : Str) (fuel : Nat) :
    replaceLoop [] repl fuel str 0 = .error .fuel := by
  have key : ∀ fuel str pos, pos ≤ str.length → replaceLoop [] repl fuel str pos = .error .fuel := by
    intro fuel
    induction fuel with
    | zero => intros; rfl
    | succ fuel ih =>
      intro str pos hp
      rw [replaceLoop, find_here hp (List.nil_prefix)]
      apply ih
      simp [replaceAt]; omega
  exact key fuel str 0 (by omega)

example : replaceSubstring (c! "a``b``c") (c! "``") [] = .ok (c! "abc") := by decide
/-- inserted text is not searched again -/
example : replaceSubstring (c! "aXb") (c! "X") (c! "XX") = .ok (c! "aXXb") := by decide
example : (c! "``") ≠ [] := by decide

end Verif
