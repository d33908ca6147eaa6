import Verif.StrUtils
import Verif.Spec.Text
import Mathlib.Data.List.TakeWhile
import Mathlib.Tactic.ByContra
/-! Helper lemmas about `StrUtils`. -/
namespace Verif
open Verif.Spec

theorem ltrim_eq (s chars : Str) : ltrim s chars = s.dropWhile (· ∈ chars) := by
  unfold ltrim
  induction s with
  | nil => simp [findFirstNotOf]
  | cons c cs ih =>
    by_cases h : c ∈ chars
    · simp only [findFirstNotOf, h, if_true, List.dropWhile_cons, decide_true]
      cases hf : findFirstNotOf chars cs with
      | none => simp [hf] at ih ⊢; exact ih
      | some i => simp [hf] at ih ⊢; exact ih
    · simp [findFirstNotOf, h]

theorem findFirstNotOf_lt {chars s : Str} {i : Nat} (h : findFirstNotOf chars s = some i) : i < s.length := by
  induction s generalizing i with
  | nil => simp [findFirstNotOf] at h
  | cons c cs ih =>
    simp only [findFirstNotOf] at h
    split at h
    · simp only [Option.map_eq_some_iff] at h
      obtain ⟨k, hk, rfl⟩ := h
      have := ih hk
      simp; omega
    · simp at h; simp [← h]

theorem rtrim_eq (s chars : Str) : rtrim s chars = (s.reverse.dropWhile (· ∈ chars)).reverse := by
  rw [← ltrim_eq]
  unfold rtrim ltrim findLastNotOf
  cases hf : findFirstNotOf chars s.reverse with
  | none => simp
  | some i =>
    have hi := findFirstNotOf_lt hf
    simp only [Option.map_some]
    rw [List.drop_reverse, List.reverse_reverse]
    congr 1
    simp at hi
    omega

theorem dropWhile_head {p : Char → Bool} {s : Str} {c : Char} (h : (s.dropWhile p).head? = some c) : p c = false := by
  induction s with
  | nil => simp at h
  | cons a as ih =>
    rw [List.dropWhile_cons] at h
    split at h
    · exact ih h
    · rename_i hp; simp at h; subst h; simpa using hp

theorem trim_decomp (s chars : Str) :
    ∃ pre post, s = pre ++ trim s chars ++ post ∧ (∀ c ∈ pre, c ∈ chars) ∧ (∀ c ∈ post, c ∈ chars) ∧
      (∀ c, (trim s chars).head? = some c → c ∉ chars) ∧ (∀ c, (trim s chars).getLast? = some c → c ∉ chars) := by
  have hl := List.takeWhile_append_dropWhile (p := fun c => decide (c ∈ chars)) (l := s)
  set m := s.dropWhile (fun c => decide (c ∈ chars)) with hm
  have hr := List.takeWhile_append_dropWhile (p := fun c => decide (c ∈ chars)) (l := m.reverse)
  have ht : trim s chars = (m.reverse.dropWhile (fun c => decide (c ∈ chars))).reverse := by
    simp only [trim, rtrim_eq, ltrim_eq]; rfl
  have hmt : m = trim s chars ++ (m.reverse.takeWhile (fun c => decide (c ∈ chars))).reverse := by
    rw [ht, ← List.reverse_append, hr, List.reverse_reverse]
  refine ⟨s.takeWhile (fun c => decide (c ∈ chars)), (m.reverse.takeWhile (fun c => decide (c ∈ chars))).reverse, ?_, ?_, ?_, ?_, ?_⟩
  · rw [List.append_assoc, ← hmt, hl]
  · intro c hc; simpa using List.mem_takeWhile_imp hc
  · intro c hc; rw [List.mem_reverse] at hc; simpa using List.mem_takeWhile_imp hc
  · intro c hc
    have : m.head? = some c := by
      rw [hmt]
      cases h : trim s chars with
      | nil => simp [h] at hc
      | cons a as => simp [h] at hc ⊢; exact hc
    simpa using dropWhile_head this
  · intro c hc
    rw [ht, List.getLast?_reverse] at hc
    simpa using dropWhile_head hc

theorem find_append (done rest needle : Str) :
    find (done ++ rest) needle done.length = (findIdx needle rest).map (· + done.length) := by
  simp [find]

theorem findIdx_none_infix {s t : Str} : findIdx s t = none ↔ ¬ s <:+: t := by
  rw [findIdx_none]
  constructor
  · rintro h ⟨u, v, rfl⟩
    exact h u.length (by simp) (by simp [List.append_assoc])
  · intro h j hj ⟨v, hv⟩
    refine h ⟨t.take j, v, ?_⟩
    rw [List.append_assoc, hv, List.take_append_drop]

theorem findIdx_some_split {s t : Str} {i : Nat} (h : findIdx s t = some i) :
    ∃ pre post, t = pre ++ s ++ post ∧ pre.length = i ∧
      ∀ u v, t = u ++ s ++ v → pre.length ≤ u.length := by
  obtain ⟨h1, ⟨v, hv⟩, h3⟩ := findIdx_some.1 h
  refine ⟨t.take i, v, ?_, by simp; omega, ?_⟩
  · rw [List.append_assoc, hv, List.take_append_drop]
  · intro u w huw
    by_contra hc
    refine h3 u.length (by simp at hc; omega) ?_
    rw [huw]; simp [List.append_assoc]

theorem replaceLoop_spec {search repl : Str} (hs : search ≠ []) (fuel : Nat) (done rest : Str)
    (hf : rest.length < fuel) :
    ∃ r, replaceLoop search repl fuel (done ++ rest) done.length = .ok (done ++ r) ∧
      Replaced search repl rest r := by
  induction fuel generalizing done rest with
  | zero => omega
  | succ fuel ih =>
    rw [replaceLoop, find_append]
    cases hx : findIdx search rest with
    | none => exact ⟨rest, rfl, .done _ (findIdx_none_infix.1 hx)⟩
    | some i =>
      obtain ⟨pre, post, rfl, rfl, hmin⟩ := findIdx_some_split hx
      have hsl : 0 < search.length := List.length_pos_iff.2 hs
      simp only [Option.map_some]
      have e1 : replaceAt (done ++ (pre ++ search ++ post)) (pre.length + done.length) search.length repl
          = (done ++ pre ++ repl) ++ post := by
        unfold replaceAt
        have h1 : List.take (pre.length + done.length) (done ++ (pre ++ search ++ post)) = done ++ pre := by
          rw [show done ++ (pre ++ search ++ post) = (done ++ pre) ++ (search ++ post) by simp]
          rw [List.take_append_of_le_length (by simp; omega), List.take_of_length_le (by simp; omega)]
        have h2 : List.drop (pre.length + done.length + search.length) (done ++ (pre ++ search ++ post)) = post := by
          rw [show done ++ (pre ++ search ++ post) = (done ++ pre ++ search) ++ post by simp]
          rw [List.drop_append_of_le_length (by simp; omega), List.drop_of_length_le (by simp; omega)]
          rfl
        rw [h1, h2]
      obtain ⟨r, hr1, hr2⟩ := ih (done ++ pre ++ repl) post (by simp at hf; omega)
      refine ⟨pre ++ repl ++ r, ?_, .step _ _ _ hmin hr2⟩
      rw [e1]
      have e2 : pre.length + done.length + repl.length = (done ++ pre ++ repl).length := by simp; omega
      simp only [e2, hr1]
      simp

theorem Spec.Replaced.unique {s r t a b : Str} (ha : Replaced s r t a) (hb : Replaced s r t b) : a = b := by
  induction ha generalizing b with
  | done t ht =>
    cases hb with
    | done => rfl
    | step pre post post' => exact absurd ⟨pre, post, rfl⟩ ht
  | step pre post post' hmin _ ih =>
    generalize ht : pre ++ s ++ post = t at hb
    cases hb with
    | done _ h => exact absurd ⟨pre, post, ht⟩ h
    | step pre2 post2 post2' hmin2 h2 =>
      have l1 := hmin _ _ ht
      have l2 := hmin2 _ _ ht.symm
      have hl : pre.length = pre2.length := by omega
      rw [List.append_assoc, List.append_assoc] at ht
      obtain ⟨rfl, h3⟩ := List.append_inj ht hl
      have := List.append_cancel_left h3
      subst this
      rw [ih h2]

/-- Newline escaping of a text, `pb`: is the previous character a backslash. -/
def escNl (pb : Bool) : Str → Str
  | [] => []
  | c :: r => if c = '\n' ∧ pb = false then '\\' :: '\n' :: escNl false r else c :: escNl (c = '\\') r

def lastBs (pb : Bool) (s : Str) : Bool :=
  match s.getLast? with
  | none => pb
  | some c => c = '\\'

theorem lastBs_append_singleton (pb : Bool) (s : Str) (c : Char) : lastBs pb (s ++ [c]) = decide (c = '\\') := by
  simp [lastBs]

theorem escNl_snoc (pb : Bool) (a : Str) (c : Char) :
    escNl pb (a ++ [c]) = escNl pb a ++ escNl (lastBs pb a) [c] := by
  induction a generalizing pb with
  | nil => rfl
  | cons x xs ih =>
    have hl : ∀ q, q = decide (x = '\\') → lastBs q xs = lastBs pb (x :: xs) := by
      intro q hq
      unfold lastBs
      cases xs with
      | nil => simp [hq]
      | cons y ys => rw [List.getLast?_cons_cons, List.getLast?_cons]
    rw [List.cons_append, escNl, escNl]
    split
    · rename_i h
      rw [ih, hl _ (by simp [h.1])]
      rfl
    · rw [ih, hl _ rfl]
      rfl

theorem getElem?_mid (A : Str) (c : Char) (B : Str) : (A ++ c :: B)[A.length]? = some c := by simp

theorem escNlLoop_spec (fuel : Nat) (A B C : Str) (hA : A ≠ []) (hf : 2 * B.length < fuel) :
    escNlLoop fuel (A ++ B ++ C) A.length (A.length + B.length) =
      .ok (A ++ escNl (lastBs false A) B ++ C, A.length + (escNl (lastBs false A) B).length) := by
  induction B generalizing fuel A with
  | nil =>
    cases fuel with
    | zero => omega
    | succ fuel => simp [escNlLoop, escNl]
  | cons c B ih =>
    match fuel, hf with
    | fuel + 2, hf =>
    have hA0 : A.length ≠ 0 := by simpa using hA
    have hlast : ∃ d, (A ++ c :: B ++ C)[A.length - 1]? = some d ∧ A.getLast? = some d := by
      refine ⟨A.getLast hA, ?_, by simp [List.getLast?_eq_getLast_of_ne_nil hA]⟩
      rw [List.append_assoc, List.getElem?_append_left (by omega), List.getLast_eq_getElem]
      simp
    obtain ⟨d, hd1, hd2⟩ := hlast
    have hcons : A ++ c :: B ++ C = (A ++ [c]) ++ B ++ C := by simp
    have hc : (A ++ c :: B ++ C)[A.length]? = some c := by simp
    have hlt : A.length < A.length + (c :: B).length := by simp
    have hbs : lastBs false A = decide (d = '\\') := by simp [lastBs, hd2]
    have step : ∀ f, 2 * B.length < f →
        escNlLoop f (A ++ c :: B ++ C) (A.length + 1) (A.length + (c :: B).length) =
        .ok (A ++ (c :: escNl (c = '\\') B) ++ C, A.length + (c :: escNl (c = '\\') B).length) := by
      intro f hf'
      have := ih f (A ++ [c]) (by simp) hf'
      rw [lastBs_append_singleton] at this
      rw [hcons]
      have e1 : A.length + 1 = (A ++ [c]).length := by simp
      have e2 : A.length + (c :: B).length = (A ++ [c]).length + B.length := by simp; omega
      rw [e1, e2, this]
      simp; omega
    rw [escNlLoop, if_pos hlt, hc]
    simp only [hA0, if_false, hd1]
    by_cases hn : c = '\n'
    · subst hn
      simp only [if_true]
      by_cases hb : d = '\\'
      · subst hb
        simp only [ne_eq, not_true_eq_false, if_false]
        rw [step (fuel + 1) (by simp at hf; omega)]
        simp [hbs, escNl]
      · rw [if_pos hb]
        have e0 : replaceAt (A ++ '\n' :: B ++ C) A.length 0 ['\\'] = (A ++ ['\\']) ++ '\n' :: B ++ C := by
          simp [replaceAt]
        rw [e0]
        rw [escNlLoop]
        have hlt2 : A.length + 1 < A.length + ('\n' :: B).length + 1 := by simp
        rw [if_pos hlt2]
        have hc2 : (A ++ ['\\'] ++ '\n' :: B ++ C)[A.length + 1]? = some '\n' := by
          have : A.length + 1 = (A ++ ['\\']).length := by simp
          rw [List.append_assoc, this]; simp
        have hc3 : (A ++ ['\\'] ++ '\n' :: B ++ C)[A.length + 1 - 1]? = some '\\' := by
          simp
        rw [hc2]
        simp only [if_true, hc3, ne_eq, not_true_eq_false, if_false]
        rw [if_neg (by omega)]
        have := ih fuel (A ++ ['\\', '\n']) (by simp) (by simp at hf; omega)
        have e1 : A.length + 1 + 1 = (A ++ ['\\', '\n']).length := by simp
        have e2 : A.length + ('\n' :: B).length + 1 = (A ++ ['\\', '\n']).length + B.length := by simp; omega
        have e3 : A ++ ['\\'] ++ '\n' :: B ++ C = (A ++ ['\\', '\n']) ++ B ++ C := by simp
        rw [e1, e2, e3, this]
        have hl : lastBs false (A ++ ['\\', '\n']) = false := by
          rw [show A ++ ['\\', '\n'] = (A ++ ['\\']) ++ ['\n'] by simp, lastBs_append_singleton]; decide
        simp [hl, hbs, hb, escNl]; omega
    · rw [if_neg hn, step (fuel + 1) (by simp at hf; omega)]
      simp [escNl, hn]

/-- Result of the loop as predicted by the specification. -/
def unescRes (pre : Str) : Option Str → Except Exc Str
  | none => .error (.parse (c! "Unfinished `\" string"))
  | some t => .ok (pre ++ t)

theorem unescRes_map (pre : Str) (f : Str → Str) (o : Option Str) (p2 : Str) (h : ∀ t, pre ++ f t = p2 ++ t) :
    unescRes pre (o.map f) = unescRes p2 o := by
  cases o <;> simp [unescRes, h]

theorem unescape_cons_of_not {i b : Bool} {c : Char} {r : Str}
    (h : ¬ (c = '`' ∧ r.head? = some '"' ∧ b = false)) :
    unescape i b (c :: r) = if c = '\n' ∧ i = true ∧ b = false then
      (unescape i false r).map ('\\' :: '\n' :: ·) else (unescape i (c = '\\') r).map (c :: ·) := by
  rw [unescape.eq_def]
  simp only [if_neg h]

theorem unescapeLoop_spec (n : Nat) :
    (∀ fuel out rest, rest.length = n → n < fuel →
      unescapeLoop fuel (out ++ rest) out.length none = unescRes out (unescape false (lastBs false out) rest)) ∧
    (∀ fuel out body rest, rest.length = n → n < fuel →
      unescapeLoop fuel (out ++ '"' :: body ++ rest) (out ++ '"' :: body).length (some out.length) =
        unescRes (out ++ '"' :: escNl false body) (unescape true (lastBs false body) rest)) := by
  induction n using Nat.strong_induction_on with
  | _ n ih =>
  -- one unfolding of the loop, valid for both states
  have skip : ∀ fuel s i prev, ¬ btQuote <+: s.drop i →
      unescapeLoop (fuel + 1) s i prev = unescapeLoop (fuel + 1) s (i + 1) prev := by
    intro fuel s i prev h
    simp only [unescapeLoop, find_skip h]
  constructor
  · intro fuel out rest hn hf
    cases fuel with
    | zero => omega
    | succ fuel =>
    cases rest with
    | nil =>
      have hx : find (out ++ []) btQuote out.length = none := by rw [find_append]; rfl
      rw [unescapeLoop, hx]; simp [unescape, unescRes]
    | cons c r =>
      have hdrop : (out ++ c :: r).drop out.length = c :: r := by simp
      have hcons : out ++ c :: r = (out ++ [c]) ++ r := by simp
      have hbk : lastBs false (out ++ [c]) = decide (c = '\\') := lastBs_append_singleton _ _ _
      simp at hn
      by_cases hm : c = '`' ∧ r.head? = some '"'
      · obtain ⟨rfl, hr⟩ := hm
        obtain ⟨r', rfl⟩ : ∃ r', r = '"' :: r' := by
          cases r with
          | nil => simp at hr
          | cons y ys => simp at hr; exact ⟨ys, by rw [hr]⟩
        have hfind : find (out ++ '`' :: '"' :: r') btQuote out.length = some out.length :=
          find_here (by simp) (by rw [hdrop]; exact ⟨r', rfl⟩)
        have hesc : (out.length ≠ 0 ∧ (out ++ '`' :: '"' :: r')[out.length - 1]? = some '\\') ↔ lastBs false out = true := by
          unfold lastBs
          cases out using List.reverseRecOn with
          | nil => simp
          | append_singleton xs x => simp
        rw [unescapeLoop, hfind]
        simp only [hesc]
        by_cases hb : lastBs false out = true
        · rw [if_pos hb]
          have := (ih (r'.length + 1) (by simp at hn; omega)).1 fuel (out ++ ['`']) ('"' :: r') (by simp) (by simp at hn; omega)
          rw [hcons]
          rw [show out.length + 1 = (out ++ ['`']).length by simp, this, hbk]
          rw [unescape, hb]
          simp
          rw [unescRes_map _ _ _ (out ++ ['`']) (by simp)]
        · rw [if_neg hb]
          have e : replaceAt (out ++ '`' :: '"' :: r') out.length 1 [] = out ++ '"' :: [] ++ r' := by
            simp [replaceAt]
          rw [e]
          have := (ih r'.length (by simp at hn; omega)).2 fuel out [] r' rfl (by simp at hn; omega)
          simp only [List.length_append, List.length_cons, List.length_nil] at this
          rw [this]
          simp at hb
          rw [unescape, hb]
          simp [lastBs, escNl]
          rw [unescRes_map _ _ _ (out ++ ['"']) (by simp)]
      · have hnp : ¬ btQuote <+: (out ++ c :: r).drop out.length := by
          rw [hdrop]
          rintro ⟨t, ht⟩
          apply hm
          simp [btQuote] at ht
          exact ⟨ht.1.symm, by rw [← ht.2]; rfl⟩
        rw [skip _ _ _ _ hnp, hcons, show out.length + 1 = (out ++ [c]).length by simp]
        rw [(ih r.length (by omega)).1 (fuel + 1) (out ++ [c]) r rfl (by omega), hbk]
        rw [unescape_cons_of_not (fun h => hm ⟨h.1, h.2.1⟩)]
        simp
        rw [unescRes_map _ _ _ (out ++ [c]) (by simp)]
  · intro fuel out body rest hn hf
    cases fuel with
    | zero => omega
    | succ fuel =>
    have hlb : lastBs false (out ++ '"' :: body) = lastBs false body := by
      unfold lastBs
      cases body using List.reverseRecOn with
      | nil => simp
      | append_singleton xs x =>
        rw [← List.cons_append, ← List.append_assoc, List.getLast?_concat, List.getLast?_concat]
    cases rest with
    | nil =>
      have hx : find (out ++ '"' :: body ++ []) btQuote (out ++ '"' :: body).length = none := by
        rw [find_append]; rfl
      rw [unescapeLoop, hx]; simp [unescape, unescRes]
    | cons c r =>
      have hdrop : (out ++ '"' :: body ++ c :: r).drop (out ++ '"' :: body).length = c :: r := by
        rw [List.drop_left]
      have hcons : out ++ '"' :: body ++ c :: r = (out ++ '"' :: (body ++ [c])) ++ r := by simp
      have hbk : lastBs false (body ++ [c]) = decide (c = '\\') := lastBs_append_singleton _ _ _
      simp at hn
      by_cases hm : c = '`' ∧ r.head? = some '"'
      · obtain ⟨rfl, hr⟩ := hm
        obtain ⟨r', rfl⟩ : ∃ r', r = '"' :: r' := by
          cases r with
          | nil => simp at hr
          | cons y ys => simp at hr; exact ⟨ys, by rw [hr]⟩
        have hfind : find (out ++ '"' :: body ++ '`' :: '"' :: r') btQuote (out ++ '"' :: body).length
            = some (out ++ '"' :: body).length :=
          find_here (by simp) (by rw [hdrop]; exact ⟨r', rfl⟩)
        have hesc : ((out ++ '"' :: body).length ≠ 0 ∧
            (out ++ '"' :: body ++ '`' :: '"' :: r')[(out ++ '"' :: body).length - 1]? = some '\\')
            ↔ lastBs false body = true := by
          rw [← hlb]
          generalize out ++ '"' :: body = o
          unfold lastBs
          cases o using List.reverseRecOn with
          | nil => simp
          | append_singleton xs x => simp
        rw [unescapeLoop, hfind]
        simp only [hesc]
        by_cases hb : lastBs false body = true
        · rw [if_pos hb]
          have := (ih (r'.length + 1) (by simp at hn; omega)).2 fuel out (body ++ ['`']) ('"' :: r') (by simp) (by simp at hn; omega)
          rw [hcons, show (out ++ '"' :: body).length + 1 = (out ++ '"' :: (body ++ ['`'])).length by simp; omega, this, hbk]
          conv_rhs => rw [unescape, hb]
          simp [escNl_snoc, escNl]
          rw [unescRes_map _ _ _ (out ++ '"' :: (escNl false body ++ ['`'])) (by simp)]
        · rw [if_neg hb]
          have e : replaceAt (out ++ '"' :: body ++ '`' :: '"' :: r') (out ++ '"' :: body).length 1 []
              = (out ++ '"' :: body) ++ '"' :: r' := by
            unfold replaceAt
            rw [List.take_left, ← List.drop_drop, List.drop_left]; simp
          rw [e]
          have hin : escNlLoop (2 * (out ++ '"' :: body ++ '"' :: r').length + 1) (out ++ '"' :: body ++ '"' :: r')
              out.length (out ++ '"' :: body).length =
              .ok ((out ++ '"' :: escNl false body) ++ '"' :: r', (out ++ '"' :: escNl false body).length) := by
            rw [escNlLoop, if_pos (by simp)]
            have h0 : (out ++ '"' :: body ++ '"' :: r')[out.length]? = some '"' := by simp
            rw [h0]
            simp only [show ('"' = '\n') = False by simp, if_false]
            have := escNlLoop_spec (2 * (out ++ '"' :: body ++ '"' :: r').length) (out ++ ['"']) body ('"' :: r') (by simp) (by simp; omega)
            rw [lastBs_append_singleton] at this
            have e2 : (out ++ '"' :: body).length = (out ++ ['"']).length + body.length := by simp; omega
            have e3 : out ++ '"' :: body ++ '"' :: r' = out ++ ['"'] ++ body ++ '"' :: r' := by simp
            rw [e2, e3, show out.length + 1 = (out ++ ['"']).length by simp]
            rw [e3] at this
            rw [this]
            simp; omega
          simp only [hin]
          have := (ih r'.length (by simp at hn; omega)).1 fuel (out ++ '"' :: escNl false body ++ ['"']) r' rfl (by simp at hn; omega)
          rw [show (out ++ '"' :: escNl false body).length + 1 = (out ++ '"' :: escNl false body ++ ['"']).length by simp; omega,
            show out ++ '"' :: escNl false body ++ '"' :: r' = out ++ '"' :: escNl false body ++ ['"'] ++ r' by simp, this,
            lastBs_append_singleton]
          simp at hb
          conv_rhs => rw [unescape, hb]
          simp
          rw [unescRes_map _ _ _ (out ++ '"' :: (escNl false body ++ ['"'])) (by simp)]
      · have hnp : ¬ btQuote <+: (out ++ '"' :: body ++ c :: r).drop (out ++ '"' :: body).length := by
          rw [hdrop]
          rintro ⟨t, ht⟩
          apply hm
          simp [btQuote] at ht
          exact ⟨ht.1.symm, by rw [← ht.2]; rfl⟩
        rw [skip _ _ _ _ hnp, hcons, show (out ++ '"' :: body).length + 1 = (out ++ '"' :: (body ++ [c])).length by simp; omega]
        rw [(ih r.length (by omega)).2 (fuel + 1) out (body ++ [c]) r rfl (by omega), hbk]
        rw [unescape_cons_of_not (b := lastBs false body) (c := c) (fun h => hm ⟨h.1, h.2.1⟩), escNl_snoc]
        by_cases hnl : c = '\n' ∧ lastBs false body = false
        · obtain ⟨rfl, h2⟩ := hnl
          simp [h2, escNl]
          rw [unescRes_map _ _ _ (out ++ '"' :: (escNl false body ++ ['\\', '\n'])) (by simp)]
        · have : ¬ (c = '\n' ∧ true = true ∧ lastBs false body = false) := fun h => hnl ⟨h.1, h.2.2⟩
          rw [if_neg this]
          have e : escNl (lastBs false body) [c] = [c] := by
            rw [escNl, if_neg hnl]; rfl
          rw [e]
          rw [unescRes_map _ _ _ (out ++ '"' :: (escNl false body ++ [c])) (by simp)]

end Verif
