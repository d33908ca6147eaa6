import Verif.MacroDefLemmas2
/-!
# Helper lemmas: the whole macro object (parsing of the body, completion of the arguments, text)
-/
namespace Verif
open Spec

theorem expandFrom_nosub (stop : Char → Bool) (b : Bool) (prev : Option Char) (s : Str) :
    expandFrom stop [] b prev 0 s = s := by
  induction s generalizing b prev with
  | nil => rfl
  | cons c r ih => simp [expandFrom, ih]

theorem insertionSort_pairLe (us : List (Nat × Nat)) :
    (us.insertionSort pairLe).Pairwise pairLe ∧ (us.insertionSort pairLe).Perm us := by
  refine ⟨?_, List.perm_insertionSort _ _⟩
  have : Std.Total pairLe := ⟨fun a b => by unfold pairLe; omega⟩
  have : IsTrans (Nat × Nat) pairLe := ⟨fun a b c => by unfold pairLe; omega⟩
  exact List.pairwise_insertionSort _ _

/-- Parsing of a macro body followed by a textual join is the specified simultaneous substitution. -/
theorem parseBody_spec (name : Str) (params : List Param) (body : Str) (hgood : GoodNames params) :
    (endsInString false none body = true → ∃ m, parseBody name params body = .error (.parse m)) ∧
    (endsInString false none body = false → ∃ fr, parseBody name params body = .ok fr ∧
      ∀ args, params.length = args.length →
        joinFrags args fr = .ok (expand stopCode ((params.map Param.name).zip args) body)) := by
  have hcs := collectStringIntervals_spec name body
  constructor
  · intro he
    rw [if_pos he] at hcs
    exact ⟨_, by simp [parseBody, hcs, bind, Except.bind]; rfl⟩
  · intro he
    rw [if_neg (by simp [he])] at hcs
    obtain ⟨ints, hi1, hi2, hi3⟩ := hcs
    by_cases hb : body = []
    · subst hb
      refine ⟨[], ?_, ?_⟩
      · simp [parseBody, hi1, bind, Except.bind, pure, Except.pure]
      · intro args _; simp [joinFrags, expand, expandFrom]
    · by_cases hp : params = []
      · subst hp
        refine ⟨[.lit body], ?_, ?_⟩
        · simp [parseBody, hi1, bind, Except.bind, pure, Except.pure, hb]
        · intro args _; simp [joinFrags, expand, expandFrom_nosub, bind, Except.bind, pure, Except.pure]
      · obtain ⟨us, hu1, hu2, hu3⟩ := allUsages_spec body ints hi2 0 params
        obtain ⟨hs1, hs2⟩ := insertionSort_pairLe us
        have main : ∀ args : List Str, params.length = args.length → _ := fun args hl =>
          expand_main params args body ints hgood hl hi3 body.length 0 (by omega) (by omega)
            (us.insertionSort pairLe) hs1 (hs2.nodup_iff.2 hu2) (by
              intro j k
              rw [hs2.mem_iff, hu3]
              simp)
        have hpb : parseBody name params body = cutBody params body 0 (us.insertionSort pairLe) := by
          simp [parseBody, hi1, bind, Except.bind, hb, hp, hu1]
        cases hc : cutBody params body 0 (us.insertionSort pairLe) with
        | error e =>
          have := main (params.map Param.name) (by simp)
          simp [cutJoin, hc] at this
        | ok fr =>
          refine ⟨fr, by rw [hpb, hc], fun args hl => ?_⟩
          have := main args hl
          simp only [cutJoin, hc] at this
          rw [this]
          rfl

/-- Loop of the completion behind at least one value. -/
theorem completeArgs_aux (name : Str) (orig : Nat) (ps : List Param) (done rest : List Str) (hne : done ++ rest ≠ [])
    (ho : orig - done.length = rest.length) (hl : rest.length ≤ ps.length) :
    (∀ v, bindList ps rest = some v → completeArgs name orig done.length ps (done ++ rest) = .ok (done ++ v)) ∧
    (bindList ps rest = none → ∃ m, completeArgs name orig done.length ps (done ++ rest) = .error (.parse m)) := by
  induction ps generalizing done rest with
  | nil =>
    cases rest with
    | nil => simp [bindList, completeArgs]
    | cons a as => simp at hl
  | cons p ps ih =>
    cases rest with
    | nil =>
      have hge : done.length ≥ orig := by simp at ho; omega
      have hnlt : ¬ done.length < orig := by omega
      have hd : done ≠ [] := by simpa using hne
      rw [completeArgs]
      cases hdv : p.hasDef with
      | true =>
        have := ih (done ++ [p.defVal]) [] (by simp) (by simp at ho ⊢; omega) (by simp)
        simp only [List.length_append, List.length_cons, List.length_nil, List.append_nil, Nat.zero_add] at this
        simp only [hge, if_true, hdv, bindList, hnlt, if_false, List.append_nil, Bool.not_true, Bool.false_eq_true]
        constructor
        · intro v hv
          simp only [Option.map_eq_some_iff] at hv
          obtain ⟨w, hw, rfl⟩ := hv
          rw [this.1 w hw]; simp
        · intro hv
          simp only [Option.map_eq_none_iff] at hv
          exact this.2 hv
      | false =>
        simp [hge, hdv, bindList, hd]
    | cons a as =>
      have hlt : done.length < orig := by simp at ho; omega
      have hnge : ¬ done.length ≥ orig := by omega
      have hget : (done ++ a :: as)[done.length]? = some a := by simp
      have key : ∀ x : Str, _ := fun x => ih (done ++ [x]) as (by simp) (by simp at ho ⊢; omega) (by simpa using hl)
      simp only [List.length_append, List.length_cons, List.length_nil, List.append_assoc, List.cons_append,
        List.nil_append, Nat.zero_add] at key
      have fin : ∀ x : Str, completeArgs name orig done.length (p :: ps) (done ++ a :: as) =
            completeArgs name orig (done.length + 1) ps (done ++ x :: as) →
          (if a = [] ∧ p.hasDef then p.defVal else a) = x →
          (∀ v, bindList (p :: ps) (a :: as) = some v →
            completeArgs name orig done.length (p :: ps) (done ++ a :: as) = .ok (done ++ v)) ∧
          (bindList (p :: ps) (a :: as) = none →
            ∃ m, completeArgs name orig done.length (p :: ps) (done ++ a :: as) = .error (.parse m)) := by
        intro x h1 h2
        rw [h1]
        simp only [bindList, h2, Option.map_eq_some_iff, Option.map_eq_none_iff]
        refine ⟨?_, (key x).2⟩
        rintro v ⟨w, hw, rfl⟩
        exact (key x).1 w hw
      by_cases ha : a = []
      · cases hdv : p.hasDef with
        | true =>
          refine fin p.defVal ?_ (by simp [ha, hdv])
          rw [completeArgs]
          simp [hlt, ha, hdv]
        | false =>
          refine fin a ?_ (by simp [hdv])
          rw [completeArgs]
          simp [hlt, ha, hdv]
      · refine fin a ?_ (by simp [ha])
        rw [completeArgs]
        have : (a.length == 0) = false := by
          rw [beq_eq_false_iff_ne]; simpa using ha
        simp [this, hnge]

/-- The completion of the argument list computes the specified binding. -/
theorem completeArgs_spec (name : Str) (ps : List Param) (args : List Str) (hl : args.length ≤ ps.length) :
    (∀ v, bindArgs ps args = some v → completeArgs name args.length 0 ps args = .ok v) ∧
    (bindArgs ps args = none → ∃ m, completeArgs name args.length 0 ps args = .error (.parse m)) := by
  cases args with
  | cons a as =>
    have := completeArgs_aux name (a :: as).length ps [] (a :: as) (by simp) (by simp) hl
    cases ps <;> simpa [bindArgs] using this
  | nil =>
    cases ps with
    | nil => simp [bindArgs, bindList, completeArgs]
    | cons p ps =>
      have key : ∀ x : Str, _ := fun x => completeArgs_aux name 0 ps [x] [] (by simp) (by simp) (by simp)
      simp only [List.append_nil, List.length_cons, List.length_nil, Nat.zero_add, List.cons_append, List.nil_append] at key
      cases hd : p.hasDef with
      | true =>
        simp [bindArgs, hd, bindList, completeArgs]
        exact ⟨fun a ha => (key _).1 a ha, (key _).2⟩
      | false =>
        simp [bindArgs, hd, bindList, completeArgs]
        exact ⟨fun a ha => (key _).1 a ha, (key _).2⟩

theorem bindList_too_many (ps : List Param) (args : List Str) (h : ps.length < args.length) : bindList ps args = none := by
  induction ps generalizing args with
  | nil => cases args <;> simp_all [bindList]
  | cons p ps ih =>
    cases args with
    | nil => simp at h
    | cons a as => simp [bindList, ih as (by simpa using h)]

theorem bindList_length {ps : List Param} {args v : List Str} (h : bindList ps args = some v) : v.length = ps.length := by
  induction ps generalizing args v with
  | nil => cases args <;> simp_all [bindList]
  | cons p ps ih =>
    cases args with
    | nil =>
      simp only [bindList] at h
      split at h
      · simp only [Option.map_eq_some_iff] at h
        obtain ⟨w, hw, rfl⟩ := h
        simp [ih hw]
      · simp at h
    | cons a as =>
      simp only [bindList, Option.map_eq_some_iff] at h
      obtain ⟨w, hw, rfl⟩ := h
      simp [ih hw]

theorem bindArgs_length {ps : List Param} {args v : List Str} (h : bindArgs ps args = some v) : v.length = ps.length := by
  unfold bindArgs at h
  split at h
  · split at h <;> exact bindList_length h
  · exact bindList_length h

theorem bindArgs_too_many (ps : List Param) (args : List Str) (h : ps.length < args.length) : bindArgs ps args = none := by
  cases args with
  | nil => simp at h
  | cons a as => cases ps <;> exact bindList_too_many _ _ h

/-! ## parsing never leaves the body or the argument list -/

def Frag.bounded (n : Nat) : Frag → Prop
  | .lit _ => True
  | .arg i => i < n

theorem cutBody_ok (params : List Param) (body : Str) (start : Nat) (us : List (Nat × Nat)) (hs : start ≤ body.length)
    (hu : ∀ u ∈ us, ∃ p, params[u.2]? = some p ∧ u.1 + p.name.length ≤ body.length) :
    ∃ fr, cutBody params body start us = .ok fr ∧ ∀ f ∈ fr, f.bounded params.length := by
  induction us generalizing start with
  | nil =>
    rw [cutBody]
    split
    · simp [substr, hs, Frag.bounded]
    · exact ⟨[], rfl, by simp⟩
  | cons u us ih =>
    obtain ⟨p, k⟩ := u
    obtain ⟨q, hq1, hq2⟩ := hu (p, k) (by simp)
    simp only at hq1 hq2
    have hk : k < params.length := by
      by_contra hc; rw [List.getElem?_eq_none (by omega)] at hq1; simp at hq1
    obtain ⟨fr, hf1, hf2⟩ := ih (p + q.name.length) hq2 (fun u hm => hu u (List.mem_cons_of_mem _ hm))
    rw [cutBody]
    simp only [hq1, hf1, bind, Except.bind, pure, Except.pure]
    by_cases hlt : start < p
    · simp only [hlt, if_true, substr, hs]
      refine ⟨_, rfl, ?_⟩
      simp [Frag.bounded, hk]
      exact hf2
    · simp only [hlt, if_false]
      refine ⟨_, rfl, ?_⟩
      simp [Frag.bounded, hk]
      exact hf2

theorem joinFrags_ok (args : List Str) (fr : List Frag) (h : ∀ f ∈ fr, f.bounded args.length) :
    ∃ s, joinFrags args fr = .ok s := by
  induction fr with
  | nil => exact ⟨[], rfl⟩
  | cons f fr ih =>
    obtain ⟨s, hs⟩ := ih (fun f hf => h f (List.mem_cons_of_mem _ hf))
    cases f with
    | lit t => exact ⟨t ++ s, by simp [joinFrags, hs, bind, Except.bind, pure, Except.pure]⟩
    | arg i =>
      have hi : Frag.bounded args.length (.arg i) := h (.arg i) (by simp)
      simp only [Frag.bounded] at hi
      exact ⟨args[i] ++ s, by simp [joinFrags, hs, List.getElem?_eq_getElem hi, bind, Except.bind, pure, Except.pure]⟩

theorem parseBody_total (name : Str) (params : List Param) (body : Str) :
    (∃ m, parseBody name params body = .error (.parse m)) ∨
    (∃ fr, parseBody name params body = .ok fr ∧ ∀ f ∈ fr, f.bounded params.length) := by
  have hcs := collectStringIntervals_spec name body
  cases he : endsInString false none body with
  | true =>
    rw [if_pos he] at hcs
    exact .inl ⟨_, by simp [parseBody, hcs, bind, Except.bind]; rfl⟩
  | false =>
    right
    rw [if_neg (by simp [he])] at hcs
    obtain ⟨ints, hi1, hi2, hi3⟩ := hcs
    by_cases hb : body = []
    · subst hb; exact ⟨[], by simp [parseBody, hi1, bind, Except.bind, pure, Except.pure], by simp⟩
    by_cases hp : params = []
    · exact ⟨[.lit body], by simp [parseBody, hi1, hb, hp, bind, Except.bind, pure, Except.pure], by simp [Frag.bounded]⟩
    obtain ⟨us, hu1, hu2, hu3⟩ := allUsages_spec body ints hi2 0 params
    obtain ⟨hs1, hs2⟩ := insertionSort_pairLe us
    obtain ⟨fr, h1, h2⟩ := cutBody_ok params body 0 (us.insertionSort pairLe) (by omega) (by
      rintro ⟨j, k⟩ hm
      rw [hs2.mem_iff, hu3] at hm
      obtain ⟨_, p, hp1, hp2, hp3⟩ := hm
      refine ⟨p, by simpa using hp1, ?_⟩
      simp only [Occ, Bool.and_eq_true] at hp3
      exact prefix_len hp2 (List.isPrefixOf_iff_prefix.1 hp3.1.1.1))
    exact ⟨fr, by simp [parseBody, hi1, hb, hp, hu1, bind, Except.bind, h1], h2⟩

/-! ## laws of the specification -/

theorem expandFrom_skip_any (stop : Char → Bool) (sub : List (Str × Str)) (b : Bool) (prev : Option Char) (n : Nat) (s : Str)
    (h : n ≤ s.length) :
    ∃ prev', expandFrom stop sub b prev n s = expandFrom stop sub b prev' 0 (s.drop n) := by
  induction s generalizing n prev with
  | nil => exact ⟨prev, by cases n <;> simp [expandFrom]⟩
  | cons c r ih =>
    cases n with
    | zero => exact ⟨prev, rfl⟩
    | succ n =>
      obtain ⟨p', hp⟩ := ih (some c) n (by simpa using h)
      exact ⟨p', by rw [expandFrom, hp]; rfl⟩

theorem expandFrom_id (stop : Char → Bool) (sub : List (Str × Str)) (h : ∀ p ∈ sub, p.1 = p.2 ∧ p.1 ≠ []) (n : Nat) (b : Bool)
    (prev : Option Char) (s : Str) (hn : s.length = n) : expandFrom stop sub b prev 0 s = s := by
  induction n using Nat.strong_induction_on generalizing s b prev with
  | _ n ih =>
  cases s with
  | nil => rfl
  | cons c r =>
    rw [expandFrom]
    cases hf : sub.find? (fun p => formalHere stop b prev (c :: r) p.1) with
    | none =>
      simp only
      rw [ih r.length (by simp at hn; omega) _ _ _ rfl]
    | some p =>
      obtain ⟨f, a⟩ := p
      have h1 := h _ (List.mem_of_find?_eq_some hf)
      have h2 := List.find?_some hf
      simp only [formalHere, Bool.and_eq_true] at h1 h2
      obtain ⟨rfl, hne⟩ := h1
      obtain ⟨t, ht⟩ := List.isPrefixOf_iff_prefix.1 h2.1.2
      obtain ⟨d, ds, rfl⟩ : ∃ d ds, f = d :: ds := by
        cases f with
        | nil => simp at hne
        | cons d ds => exact ⟨d, ds, rfl⟩
      simp only [List.cons_append, List.cons.injEq] at ht
      obtain ⟨rfl, rfl⟩ := ht
      obtain ⟨p', hp'⟩ := expandFrom_skip_any stop sub b (some d) ds.length (ds ++ t) (by simp)
      simp only [List.length_cons, Nat.add_sub_cancel]
      rw [hp', List.drop_left, ih t.length (by simp at hn; omega) _ _ _ rfl]
      simp

theorem bindList_self (ps : List Param) (h : ∀ p ∈ ps, p.name ≠ []) :
    bindList ps (ps.map Param.name) = some (ps.map Param.name) := by
  induction ps with
  | nil => rfl
  | cons p ps ih =>
    have := h p (by simp)
    simp [bindList, ih (fun q hq => h q (List.mem_cons_of_mem _ hq)), this]

theorem bindArgs_self (ps : List Param) (h : ∀ p ∈ ps, p.name ≠ []) :
    bindArgs ps (ps.map Param.name) = some (ps.map Param.name) := by
  cases ps with
  | nil => rfl
  | cons p ps => exact bindList_self _ h

/-- State of the scanner after a text: in a string?, the last character. -/
def scan : Bool → Option Char → Str → Bool × Option Char
  | b, prev, [] => (b, prev)
  | b, prev, c :: r => scan (b != isQuote prev c) (some c) r

theorem endsInString_eq_scan (b : Bool) (prev : Option Char) (s : Str) : endsInString b prev s = (scan b prev s).1 := by
  induction s generalizing b prev with
  | nil => rfl
  | cons c r ih => simp [endsInString, scan, ih]

theorem prefix_quote {name pre t : Str} (hn : IsIdent name) : name.isPrefixOf (pre ++ '"' :: t) = name.isPrefixOf pre := by
  rw [Bool.eq_iff_iff, List.isPrefixOf_iff_prefix, List.isPrefixOf_iff_prefix]
  constructor
  · intro h
    have hp : pre <+: pre ++ '"' :: t := List.prefix_append _ _
    rcases Nat.lt_or_ge pre.length name.length with hlt | hle
    · exfalso
      obtain ⟨u, hu⟩ := h
      have h1 : (pre ++ '"' :: t)[pre.length]? = some '"' := by simp
      rw [← hu, List.getElem?_append_left hlt, List.getElem?_eq_getElem hlt] at h1
      have := hn.2 _ (List.getElem_mem hlt)
      simp only [Option.some.injEq] at h1
      exact isIdChar_not_quote this h1
    · exact List.prefix_of_prefix_length_le h hp hle
  · intro h
    exact h.trans (List.prefix_append _ _)

theorem formalHere_quote {stop : Char → Bool} {b : Bool} {prev : Option Char} {pre t : Str} {name : Str} (hn : IsIdent name) :
    formalHere stop b prev (pre ++ '"' :: t) name = formalHere stop b prev (pre ++ ['"']) name := by
  unfold formalHere
  rw [prefix_quote hn, prefix_quote (t := []) hn]
  by_cases hp : name.isPrefixOf pre = true
  · have hl := (List.isPrefixOf_iff_prefix.1 hp).length_le
    rw [List.drop_append_of_le_length hl, List.drop_append_of_le_length hl]
    cases pre.drop name.length <;> simp
  · simp [hp]

/-- Text in front of a quote expands independently of the text behind the quote. -/
theorem expandFrom_split (stop : Char → Bool) (sub : List (Str × Str)) (hsub : ∀ p ∈ sub, IsIdent p.1) (n : Nat) (b : Bool)
    (prev : Option Char) (pre : Str) (hn : pre.length = n) :
    ∃ A, ∀ t, expandFrom stop sub b prev 0 (pre ++ '"' :: t) =
      A ++ expandFrom stop sub (scan b prev pre).1 (scan b prev pre).2 0 ('"' :: t) := by
  induction n using Nat.strong_induction_on generalizing pre b prev with
  | _ n ih =>
  cases pre with
  | nil => exact ⟨[], fun t => rfl⟩
  | cons c r =>
    have hfind : ∀ t, sub.find? (fun p => formalHere stop b prev (c :: r ++ '"' :: t) p.1) =
        sub.find? (fun p => formalHere stop b prev (c :: r ++ ['"']) p.1) := by
      intro t
      have : ∀ l : List (Str × Str), (∀ p ∈ l, IsIdent p.1) → l.find? (fun p => formalHere stop b prev (c :: r ++ '"' :: t) p.1) =
        l.find? (fun p => formalHere stop b prev (c :: r ++ ['"']) p.1) := by
        intro l hl
        induction l with
        | nil => rfl
        | cons p l ihl =>
          rw [List.find?_cons, List.find?_cons, formalHere_quote (hl p (by simp)), ihl (fun q hq => hl q (List.mem_cons_of_mem _ hq))]
      exact this sub hsub
    cases hf : sub.find? (fun p => formalHere stop b prev (c :: r ++ ['"']) p.1) with
    | none =>
      obtain ⟨A, hA⟩ := ih r.length (by simp at hn; omega) (b != isQuote prev c) (some c) r rfl
      refine ⟨c :: A, fun t => ?_⟩
      have h2 := hfind t
      rw [hf] at h2
      simp only [List.cons_append] at h2 ⊢
      rw [expandFrom, h2]
      simp only
      rw [hA]
      rfl
    | some p =>
      obtain ⟨f, a⟩ := p
      have hid := hsub _ (List.mem_of_find?_eq_some hf)
      have h2 := List.find?_some hf
      simp only [formalHere, Bool.and_eq_true] at h2
      have hpfx := h2.1.2
      rw [prefix_quote hid] at hpfx
      obtain ⟨u, hu⟩ := List.isPrefixOf_iff_prefix.1 hpfx
      obtain ⟨d, ds, rfl⟩ : ∃ d ds, f = d :: ds := by
        cases f with
        | nil => exact absurd rfl hid.1
        | cons d ds => exact ⟨d, ds, rfl⟩
      simp only [List.cons_append, List.cons.injEq] at hu
      obtain ⟨rfl, rfl⟩ := hu
      -- skipping the rest of the name
      have hskip : ∀ (ds : Str) (q : Option Char) (t : Str), (∀ c ∈ ds, isIdChar c = true) →
          expandFrom stop sub b q ds.length (ds ++ t) = expandFrom stop sub b (scan b q ds).2 0 t ∧ (scan b q ds).1 = b := by
        intro ds
        induction ds with
        | nil => intro q t _; exact ⟨rfl, rfl⟩
        | cons e es ihe =>
          intro q t hall
          have he : e ≠ '"' := isIdChar_not_quote (hall e (by simp))
          have hq : isQuote q e = false := by simp [isQuote, he]
          obtain ⟨h3, h4⟩ := ihe (some e) t (fun x hx => hall x (List.mem_cons_of_mem _ hx))
          simp only [List.cons_append, List.length_cons, expandFrom, scan, hq, Bool.bne_false]
          exact ⟨h3, h4⟩
      have hall : ∀ x ∈ ds, isIdChar x = true := fun x hx => hid.2 x (List.mem_cons_of_mem _ hx)
      obtain ⟨A, hA⟩ := ih u.length (by simp at hn; omega) b (scan b (some d) ds).2 u rfl
      refine ⟨a ++ A, fun t => ?_⟩
      have h5 := hfind t
      rw [hf] at h5
      simp only [List.cons_append, List.append_assoc] at h5 ⊢
      rw [expandFrom, h5]
      simp only [List.length_cons, Nat.add_sub_cancel]
      rw [(hskip ds (some d) (u ++ '"' :: t) hall).1, hA]
      have hd : isQuote prev d = false := by
        have : d ≠ '"' := isIdChar_not_quote (hid.2 d (by simp))
        simp [isQuote, this]
      have happ : ∀ (x y : Str) b q, scan b q (x ++ y) = scan (scan b q x).1 (scan b q x).2 y := by
        intro x
        induction x with
        | nil => intros; rfl
        | cons e es ihe => intro y b q; simp only [List.cons_append, scan, ihe]
      rw [scan, hd, Bool.bne_false, happ, (hskip ds (some d) [] hall).2]

/-- Text inside of a string is copied. -/
theorem expandFrom_inString (stop : Char → Bool) (sub : List (Str × Str)) (prev : Option Char) (s t : Str)
    (hs : ∀ u v, s = u ++ '"' :: v → isQuote (scan true prev u).2 '"' = false) :
    expandFrom stop sub true prev 0 (s ++ t) = s ++ expandFrom stop sub true (scan true prev s).2 0 t := by
  induction s generalizing prev with
  | nil => rfl
  | cons c r ih =>
    have hnone : sub.find? (fun p => formalHere stop true prev (c :: (r ++ t)) p.1) = none := by
      rw [List.find?_eq_none]; intro p _; simp [formalHere]
    have hq : isQuote prev c = false := by
      by_cases hc : c = '"'
      · subst hc; exact hs [] r rfl
      · simp [isQuote, hc]
    rw [List.cons_append, expandFrom, hnone]
    simp only
    rw [hq, Bool.bne_false, ih (some c)]
    · simp [scan, hq]
    · rintro u v rfl
      have := hs (c :: u) v rfl
      simpa [scan, hq] using this

end Verif
