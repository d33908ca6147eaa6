import Verif.Comments
import Verif.Spec.Literal
import Verif.LiteralLemmas
/-!
# Properties of doc comments (C35)
-/
namespace Verif
open Spec

/-- The text a comment token should contribute: nothing for white space, the text behind the marker (and behind one space) for a
line comment, the whole text for other tokens. -/
def Spec.docOf (mk : Char) (t : Tok) : Str :=
  if t.ws then [] else
  match t.text with
  | a :: b :: body => if a = mk ∧ b = mk then docBody body else t.text
  | _ => t.text

theorem firstComment_eq (a b c : List Tok) (hb : ∀ t ∈ b, t.hidden = true)
    (ha : a = [] ∨ ∃ a' t, a = a' ++ [t] ∧ t.hidden = false) :
    firstComment (a ++ b ++ c) (a.length + b.length) = .ok a.length := by
  induction b using List.reverseRecOn generalizing c with
  | nil =>
    rcases ha with rfl | ⟨a', t, rfl, ht⟩
    · rfl
    · simp [firstComment, ht]
  | append_singleton b t ih =>
    have h1 : (a ++ (b ++ [t]) ++ c)[a.length + b.length]? = some t := by simp
    have h2 : a.length + (b ++ [t]).length = a.length + b.length + 1 := by simp; omega
    rw [h2, firstComment, h1]
    simp only [hb t (by simp), if_true]
    have := ih ([t] ++ c) (fun x hx => hb x (by simp [hx]))
    simpa using this

theorem stripComment_marker {mk : Char} (hmk : isSpaceC mk = false) (body : Str) :
    stripComment mk (mk :: mk :: body) = if body.tail.head? = some ' ' then body.drop 1 else body := by
  unfold stripComment
  have h1 : ((mk :: mk :: body).takeWhile isSpaceC).length = 0 := by simp [hmk]
  rw [h1]
  rcases body with _ | ⟨c, _ | ⟨d, r⟩⟩
  · simp
  · simp [charAt]
  · simp [charAt]

theorem stripComment_other {mk : Char} {s : Str} (hs : ∀ c, s.head? = some c → isSpaceC c = false)
    (h : ¬ ∃ body, s = mk :: mk :: body) : stripComment mk s = s := by
  unfold stripComment
  have h1 : (s.takeWhile isSpaceC).length = 0 := by
    cases s with
    | nil => rfl
    | cons c r => simp [hs c rfl]
  rw [h1]
  rw [if_neg]
  rintro ⟨h2, h3, h4⟩
  rcases s with _ | ⟨c, _ | ⟨d, r⟩⟩
  · simp at h2
  · simp at h2
  · simp at h3 h4
    subst h3 h4
    exact h ⟨r, rfl⟩

theorem collectComments_eq (mk : Char) (ts : List Tok) :
    collectComments mk ts = ts.flatMap (fun t => if t.ws then [] else stripComment mk t.text) := by
  induction ts with
  | nil => rfl
  | cons t r ih => rw [collectComments, ih]; rfl

/-- C35 (partial): the doc string consists of exactly the hidden tokens that directly precede the object, in order, each with only
its marker removed, if every line comment among them starts with two spaces or has a space at neither of its first two places.
Missing (the code violates it, see below): the other line comments; `/*` and `--`/`//` markers of block comments stay. -/
theorem C35_partial (mk : Char) (hmk : isSpaceC mk = false) (a b c : List Tok) (hb : ∀ t ∈ b, t.hidden = true)
    (ha : a = [] ∨ ∃ a' t, a = a' ++ [t] ∧ t.hidden = false)
    (hs : ∀ t ∈ b, t.ws = false → ∀ c, t.text.head? = some c → isSpaceC c = false)
    (hc : ∀ t ∈ b, t.ws = false → ∀ body, t.text = mk :: mk :: body → (body.head? = some ' ' ↔ body.tail.head? = some ' ')) :
    parseDoc mk (a ++ b ++ c) (a.length + b.length) = .ok (b.flatMap (Spec.docOf mk)) := by
  unfold parseDoc
  rw [firstComment_eq a b c hb ha]
  have h1 : ((a ++ b ++ c).take (a.length + b.length)).drop a.length = b := by
    rw [List.take_left' (by simp), List.drop_left]
  show Except.ok (collectComments mk (((a ++ b ++ c).take (a.length + b.length)).drop a.length)) = _
  rw [h1, collectComments_eq]
  congr 1
  apply List.flatMap_congr
  intro t ht
  unfold Spec.docOf
  cases hw : t.ws with
  | true => rfl
  | false =>
    simp only [Bool.false_eq_true, if_false]
    by_cases hm : ∃ body, t.text = mk :: mk :: body
    · obtain ⟨body, hbd⟩ := hm
      have := hc t ht hw body hbd
      rw [hbd, stripComment_marker hmk]
      simp only [and_self, if_true]
      rcases body with _ | ⟨d, r⟩
      · rfl
      · by_cases hd : d = ' '
        · subst hd
          have h2 : (' ' :: r).tail.head? = some ' ' := this.1 rfl
          rw [if_pos h2]; rfl
        · have h2 : ¬ (d :: r).tail.head? = some ' ' := fun h => hd (by simpa using this.2 h)
          rw [if_neg h2]
          unfold docBody
          split
          · rename_i heq; simp at heq; exact absurd heq.1 hd
          · rfl
    · rw [stripComment_other (hs t ht hw) hm]
      rcases htx : t.text with _ | ⟨x, _ | ⟨y, r⟩⟩
      · rfl
      · rfl
      · rw [htx] at hm
        have : ¬ (x = mk ∧ y = mk) := by rintro ⟨rfl, rfl⟩; exact hm ⟨r, rfl⟩
        simp [this]

/-- A comment that meets the hypotheses of `C35_partial`: `--  two`, in front of an object at index 3, behind another token. -/
example : parseDoc '-' [⟨false, false, c! ";"⟩, ⟨true, true, c! "\n"⟩, ⟨true, false, c! "--  two"⟩, ⟨false, false, c! "entity"⟩] 3 =
    .ok (c! " two") := by decide

/-- C35 (violated): the usual comment `-- text` keeps its leading space: the code looks for the space one place too far right. -/
theorem C35_violated_space (mk : Char) (hmk : isSpaceC mk = false) (d : Char) (r : Str) (hd : d ≠ ' ') :
    stripComment mk (mk :: mk :: ' ' :: d :: r) = ' ' :: d :: r ∧
    stripComment mk (mk :: mk :: ' ' :: d :: r) ≠ docBody (' ' :: d :: r) := by
  have : stripComment mk (mk :: mk :: ' ' :: d :: r) = ' ' :: d :: r := by
    rw [stripComment_marker hmk]; simp [hd]
  exact ⟨this, by rw [this]; simp [docBody]⟩

/-- C35 (violated): if the second character of the comment is a space, the first one is lost. -/
theorem C35_violated_lost (mk : Char) (hmk : isSpaceC mk = false) (d : Char) (r : Str) (hd : d ≠ ' ') :
    stripComment mk (mk :: mk :: d :: ' ' :: r) = ' ' :: r ∧
    stripComment mk (mk :: mk :: d :: ' ' :: r) ≠ docBody (d :: ' ' :: r) := by
  have : stripComment mk (mk :: mk :: d :: ' ' :: r) = ' ' :: r := by
    rw [stripComment_marker hmk]; simp
  refine ⟨this, ?_⟩
  rw [this]
  unfold docBody
  split
  · rename_i heq; simp at heq; exact absurd heq.1 hd
  · intro h
    have := congrArg List.length h
    simp at this

/-- C35 (violated): a block comment keeps its markers. -/
theorem C35_violated_block (body : Str) : stripComment '/' ('/' :: '*' :: (body ++ ['*', '/'])) = '/' :: '*' :: (body ++ ['*', '/']) :=
  stripComment_other (by intro c hc; simp at hc; subst hc; decide) (by rintro ⟨b, hb⟩; simp at hb)

example : parseDoc '/' [⟨true, false, c! "//a b"⟩, ⟨false, false, c! "module"⟩] 1 = .ok (c! " b") := by decide

end Verif
