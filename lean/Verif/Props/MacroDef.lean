import Verif.MacroDefLemmas3
/-!
# Properties of macros with parameters: C06, C07, C08, C09, C10, C50

`ExpandsTo name hasParams params body args out` is the observable of the C++ object: construct the macro from its
textual definition, call `replace`, look at the returned text.
-/
namespace Verif
open Spec

/-- Define a macro and expand it once. -/
def defineAndExpand (name : Str) (params : List Param) (body : Str) (args : List Str) (braces : Bool) (hasParams : Bool) :
    Except Exc Str := do
  (← MacroDef.new name hasParams params body).replace args braces

/-- Formal parameters as the grammar produces them: distinct identifiers. -/
def FormalsOk (ps : List Param) : Prop := (∀ p ∈ ps, IsIdent p.name) ∧ (ps.map Param.name).Nodup

private theorem expand_core (name : Str) (params : List Param) (body : Str) (args : List Str) (hf : FormalsOk params)
    (hb : endsInString false none body = false) :
    (∀ vals, bindArgs params args = some vals → defineAndExpand name params body args true true =
        .ok (expand stopCode ((params.map Param.name).zip vals) body)) ∧
    (bindArgs params args = none → ∃ m, defineAndExpand name params body args true true = .error (.parse m)) := by
  obtain ⟨fr, hfr, hj⟩ := (parseBody_spec name params body hf).2 hb
  rcases Nat.lt_or_ge params.length args.length with hlt | hle
  · have hnone := bindArgs_too_many params args hlt
    have : ¬ args.length ≤ params.length := by omega
    refine ⟨fun v hv => by rw [hnone] at hv; simp at hv, fun _ => ?_⟩
    simp [defineAndExpand, MacroDef.new, hfr, bind, Except.bind, pure, Except.pure, MacroDef.replace, this]
  · obtain ⟨h1, h2⟩ := completeArgs_spec name params args hle
    constructor
    · intro v hv
      simp [defineAndExpand, MacroDef.new, hfr, bind, Except.bind, pure, Except.pure, MacroDef.replace, hle, h1 v hv,
        hj v (bindArgs_length hv).symm]
    · intro hv
      obtain ⟨m, hm⟩ := h2 hv
      exact ⟨m, by simp [defineAndExpand, MacroDef.new, hfr, bind, Except.bind, pure, Except.pure, MacroDef.replace, hle, hm]⟩

/-- **C06** For every macro text (without an unterminated string), every list of distinct formal parameters and every
argument list: the result is the one-pass simultaneous substitution of the bound values into the text. Replaced text is
never looked at again, so an argument that contains the name of another parameter is not substituted. -/
theorem C06_simultaneous_substitution (name : Str) (params : List Param) (body : Str) (args vals : List Str)
    (hf : FormalsOk params) (hb : endsInString false none body = false) (hv : bindArgs params args = some vals) :
    defineAndExpand name params body args true true =
      .ok (expand stopCode ((params.map Param.name).zip vals) body) :=
  (expand_core name params body args hf hb).1 vals hv

def pA : Param := ⟨c! "a", false, []⟩
def pB : Param := ⟨c! "b", true, c! "7"⟩

example : FormalsOk [pA, pB] ∧ endsInString false none (c! "a+b+ab") = false ∧
    bindArgs [pA, pB] [c! "b", c! "a"] = some [c! "b", c! "a"] := by
  refine ⟨⟨?_, by decide⟩, by decide, by decide⟩
  intro p hp
  simp at hp
  rcases hp with rfl | rfl <;> exact ⟨by decide, by decide⟩

/-- swap of two parameters: not a sequential replacement -/
example : defineAndExpand (c! "M") [pA, pB] (c! "a+b+ab") [c! "b", c! "a"] true true = .ok (c! "b+a+ab") := by decide

/-- **C06** (text without parameters) A macro without parameters expands to exactly its text. -/
theorem C06_no_params (name body : Str) (hb : endsInString false none body = false) :
    defineAndExpand name [] body [] false false = .ok body := by
  obtain ⟨fr, hfr, hj⟩ := (parseBody_spec name [] body ⟨by simp, by simp⟩).2 hb
  have := hj [] rfl
  simp [expand, expandFrom_nosub] at this
  simp [defineAndExpand, MacroDef.new, hfr, bind, Except.bind, pure, Except.pure, MacroDef.replace, completeArgs, this]

example : endsInString false none (c! "x \"y\" z") = false := by decide

/-- **C07** Calling a macro with its own formal names as the arguments gives back its text. -/
theorem C07_round_trip (name : Str) (params : List Param) (body : Str) (hf : FormalsOk params)
    (hb : endsInString false none body = false) :
    defineAndExpand name params body (params.map Param.name) true true = .ok body := by
  rw [C06_simultaneous_substitution name params body _ _ hf hb (bindArgs_self params (fun p hp => (hf.1 p hp).1))]
  rw [expand, expandFrom_id _ _ _ body.length _ _ _ rfl]
  intro p hp
  obtain ⟨a, b⟩ := p
  have h1 := List.of_mem_zip hp
  have hab : a = b := by
    have key : ∀ (l : List Str), (a, b) ∈ l.zip l → a = b := by
      intro l
      induction l with
      | nil => simp
      | cons x l ih =>
        rw [List.zip_cons_cons, List.mem_cons]
        rintro (h | h)
        · simp at h; rw [h.1, h.2]
        · exact ih h
    exact key _ hp
  refine ⟨hab, ?_⟩
  rw [List.mem_map] at h1
  obtain ⟨⟨q, hq, rfl⟩, _⟩ := h1
  exact (hf.1 q hq).1

/-- **C08** A string literal in the macro text appears unchanged in the expansion whatever the arguments are, and the
texts in front of it and behind it are expanded as if they stood alone. `s` is the content of the string: every quote
in it is escaped; the opening and the closing quote are not. -/
theorem C08_strings_immune (name : Str) (params : List Param) (pre s post : Str) (args vals : List Str)
    (hf : FormalsOk params) (hv : bindArgs params args = some vals)
    (hpre : endsInString false none pre = false) (hopen : pre.getLast? ≠ some '`' ∧ pre.getLast? ≠ some '\\')
    (hs : ∀ u v, s = u ++ '"' :: v → u.getLast? = some '`' ∨ u.getLast? = some '\\')
    (hclose : s.getLast? ≠ some '`' ∧ s.getLast? ≠ some '\\')
    (hpost : endsInString false none post = false) :
    ∃ A B, defineAndExpand name params (pre ++ '"' :: s ++ '"' :: post) args true true = .ok (A ++ '"' :: s ++ '"' :: B) ∧
      expand stopCode ((params.map Param.name).zip vals) (pre ++ ['"']) = A ++ ['"'] ∧
      expand stopCode ((params.map Param.name).zip vals) post = B := by
  have hlast : ∀ (x : Str) b q, (scan b q x).2 = x.getLast?.or q := by
    intro x
    induction x with
    | nil => intros; simp [scan]
    | cons c r ih =>
      intro b q
      rw [scan, ih]
      cases r <;> simp [List.getLast?_cons]
  have hsub : ∀ p ∈ (params.map Param.name).zip vals, IsIdent p.1 := by
    rintro ⟨a, b⟩ hp
    have := (List.of_mem_zip hp).1
    rw [List.mem_map] at this
    obtain ⟨q, hq, rfl⟩ := this
    exact hf.1 q hq
  have happ : ∀ (x y : Str) b q, scan b q (x ++ y) = scan (scan b q x).1 (scan b q x).2 y := by
    intro x
    induction x with
    | nil => intros; rfl
    | cons e es ihe => intro y b q; simp only [List.cons_append, scan, ihe]
  -- the opening quote
  have h1 : (scan false none pre).1 = false := by rw [← endsInString_eq_scan]; exact hpre
  have hq1 : isQuote (scan false none pre).2 '"' = true := by
    rw [hlast]; simp [isQuote]
    exact hopen
  -- inside
  have hin : ∀ u v, s = u ++ '"' :: v → isQuote (scan true (some '"') u).2 '"' = false := by
    intro u v h
    rw [hlast]
    rcases hs u v h with h | h <;> simp [isQuote, h]
  have hscan : ∀ (x : Str) q, (∀ u v, x = u ++ '"' :: v → isQuote (scan true q u).2 '"' = false) → (scan true q x).1 = true := by
    intro x
    induction x with
    | nil => intros; rfl
    | cons c r ih =>
      intro q h
      have hc : isQuote q c = false := by
        by_cases hc : c = '"'
        · subst hc; exact h [] r rfl
        · simp [isQuote, hc]
      rw [scan, hc, Bool.bne_false]
      apply ih
      rintro u v rfl
      have := h (c :: u) v rfl
      simpa [scan, hc] using this
  have h2 := hscan s (some '"') hin
  have hq2 : isQuote (scan true (some '"') s).2 '"' = true := by
    rw [hlast]
    cases hg : s.getLast? with
    | none => decide
    | some c =>
      rw [hg] at hclose
      simp [isQuote]
      simpa using hclose
  have hquote : ∀ c, isQuote (some '"') c = isQuote none c := by
    intro c
    unfold isQuote
    rw [show ((some '"' : Option Char) != some '`') = true by decide, show ((some '"' : Option Char) != some '\\') = true by decide,
      show ((none : Option Char) != some '`') = true by decide, show ((none : Option Char) != some '\\') = true by decide]
  -- behind: a quote in front is as good as nothing in front
  have hprevq : ∀ (x : Str), expandFrom stopCode ((params.map Param.name).zip vals) false (some '"') 0 x =
      expandFrom stopCode ((params.map Param.name).zip vals) false none 0 x := by
    intro x
    cases x with
    | nil => rfl
    | cons c r =>
      have e1 : ∀ nm, formalHere stopCode false (some '"') (c :: r) nm = formalHere stopCode false none (c :: r) nm := by
        intro nm
        have : isIdChar '"' = false := by decide
        simp [formalHere, this]
      have e2 := hquote c
      rw [expandFrom, expandFrom]
      simp only [e1, e2]
  have hne : ∀ b q t, expandFrom stopCode ((params.map Param.name).zip vals) b q 0 ('"' :: t) =
      '"' :: expandFrom stopCode ((params.map Param.name).zip vals) (b != isQuote q '"') (some '"') 0 t := by
    intro b q t
    have : ((params.map Param.name).zip vals).find? (fun p => formalHere stopCode b q ('"' :: t) p.1) = none := by
      rw [List.find?_eq_none]
      intro p hp
      have hid := hsub p hp
      have := prefix_quote (pre := []) (t := t) hid
      simp only [List.nil_append] at this
      have h3 : p.1.isPrefixOf ([] : Str) = false := by
        cases hpp : p.1 with
        | nil => exact absurd hpp hid.1
        | cons _ _ => rfl
      simp [formalHere, this, h3]
    rw [expandFrom, this]
  obtain ⟨A, hA⟩ := expandFrom_split stopCode ((params.map Param.name).zip vals) hsub pre.length false none pre rfl
  have hbody : endsInString false none (pre ++ '"' :: s ++ '"' :: post) = false := by
    rw [endsInString_eq_scan, List.append_assoc, happ, h1, List.cons_append, scan, hq1]
    simp only [Bool.false_bne]
    rw [happ, h2, scan, hq2]
    simp only [Bool.bne_true, Bool.not_true]
    rw [← endsInString_eq_scan]
    refine Eq.trans ?_ hpost
    cases post with
    | nil => rfl
    | cons c r => rw [endsInString, endsInString, hquote]
  refine ⟨A, expand stopCode ((params.map Param.name).zip vals) post, ?_, ?_, rfl⟩
  · rw [C06_simultaneous_substitution name params _ args vals hf hbody hv]
    congr 1
    rw [expand, List.append_assoc, List.cons_append, hA, h1, hne, hq1]
    simp only [Bool.false_bne]
    rw [expandFrom_inString _ _ _ _ _ hin, hne, hq2]
    simp only [Bool.bne_true, Bool.not_true]
    rw [hprevq]
    simp [expand]
  · rw [expand, hA, h1, hne, hq1]
    simp [expandFrom]

/-- the hypotheses of C08 for the text `a+"a"+a` -/
example : endsInString false none (c! "a+") = false ∧ (c! "a+").getLast? ≠ some '`' ∧ (c! "a+").getLast? ≠ some '\\' ∧
    (c! "a").getLast? ≠ some '`' ∧ (c! "a").getLast? ≠ some '\\' ∧ endsInString false none (c! "+a") = false := by decide

example : defineAndExpand (c! "M") [pA] (c! "a+\"a\"+a") [c! "1"] true true = .ok (c! "1+\"a\"+1") := by decide

/-- **C09, violated**: the parameter `a` of the macro text `a[3]` is not replaced, because the code treats an opening
bracket like a continuation of the identifier. -/
theorem C09_violated_witness :
    defineAndExpand (c! "M") [pA] (c! "a[3]") [c! "x"] true true = .ok (c! "a[3]") ∧
    expand stopStd [(c! "a", c! "x")] (c! "a[3]") = c! "x[3]" := by decide

/-- **C09, what the code does instead**, in general: the formal `f` directly followed by an opening bracket `b` stays in
the text, for every value and every rest. -/
theorem C09_violated_general (name : Str) (p : Param) (v : Str) (b : Char) (post : Str) (hf : FormalsOk [p])
    (hb : isOpenBracket b = true) (hpost : endsInString false none (p.name ++ b :: post) = false) (hv : v ≠ []) :
    ∃ out, defineAndExpand name [p] (p.name ++ b :: post) [v] true true = .ok (p.name ++ out) := by
  have hid := hf.1 p (by simp)
  have hbv : bindArgs [p] [v] = some [v] := by simp [bindArgs, bindList, hv]
  rw [C06_simultaneous_substitution name [p] _ _ _ hf hpost hbv]
  -- no position inside of the leading name is a free-standing occurrence
  have key : ∀ (u : Str) (q : Option Char) (inS : Bool), (∀ c ∈ u, isIdChar c = true) → (q.any isIdChar = true ∨ u = p.name) →
      ∃ out, expandFrom stopCode [(p.name, v)] inS q 0 (u ++ b :: post) = u ++ out := by
    intro u
    induction u with
    | nil => intro q _ _ _; exact ⟨_, rfl⟩
    | cons c r ih =>
      intro q inS hall hq
      have hn : ([(p.name, v)] : List (Str × Str)).find? (fun x => formalHere stopCode inS q (c :: (r ++ b :: post)) x.1) = none := by
        rcases hq with hq | hq
        · simp [formalHere, hq]
        · have : ((c :: (r ++ b :: post)).drop p.name.length).head?.any stopCode = true := by
            rw [← hq]; simp [stopCode, hb]
          rw [List.find?_eq_none]
          intro x hx
          simp only [List.mem_singleton] at hx
          subst hx
          simp only [formalHere, this, Bool.not_true, Bool.and_false]
          simp
      obtain ⟨out, ho⟩ := ih (some c) (inS != isQuote q c) (fun x hx => hall x (List.mem_cons_of_mem _ hx))
        (.inl (by simpa using hall c (by simp)))
      refine ⟨out, ?_⟩
      rw [List.cons_append, expandFrom, hn]
      simp only
      rw [ho]; rfl
  obtain ⟨out, ho⟩ := key p.name none false hid.2 (.inr rfl)
  exact ⟨out, by simpa [expand] using ho⟩

example : FormalsOk [pA] ∧ isOpenBracket '(' = true ∧ endsInString false none (pA.name ++ '(' :: c! "1)") = false := by
  refine ⟨⟨?_, by decide⟩, by decide, by decide⟩
  intro p hp
  simp at hp
  subst hp
  exact ⟨by decide, by decide⟩

/-- **C09, the part that holds**: if no formal name is directly followed by an opening bracket in the macro text, the
substitution is the one of the language (every free-standing occurrence is replaced). Missing: the names in front of
brackets, where the claim is false. -/
theorem C09_substitution_partial (name : Str) (params : List Param) (body : Str) (args vals : List Str)
    (hf : FormalsOk params) (hb : endsInString false none body = false) (hv : bindArgs params args = some vals)
    (hbr : ∀ p ∈ params, ∀ u b v, body = u ++ p.name ++ b :: v → isOpenBracket b = false) :
    defineAndExpand name params body args true true =
      .ok (expand stopStd ((params.map Param.name).zip vals) body) := by
  rw [C06_simultaneous_substitution name params body args vals hf hb hv]
  congr 1
  have key : ∀ (s : Str) (inS : Bool) (q : Option Char) (n : Nat), (∃ u, body = u ++ s) →
      expandFrom stopCode ((params.map Param.name).zip vals) inS q n s =
      expandFrom stopStd ((params.map Param.name).zip vals) inS q n s := by
    intro s
    induction s with
    | nil => intros; cases ‹Nat› <;> rfl
    | cons c r ih =>
      rintro inS q n ⟨u, hu⟩
      have hu' : ∃ u, body = u ++ r := ⟨u ++ [c], by simp [hu]⟩
      cases n with
      | succ n => rw [expandFrom, expandFrom]; exact ih _ _ _ hu'
      | zero =>
        have hff : ∀ x ∈ (params.map Param.name).zip vals, formalHere stopCode inS q (c :: r) x.1 =
            formalHere stopStd inS q (c :: r) x.1 := by
          rintro ⟨a, b⟩ hx
          have := (List.of_mem_zip hx).1
          rw [List.mem_map] at this
          obtain ⟨p, hp, rfl⟩ := this
          unfold formalHere
          by_cases hpf : p.name.isPrefixOf (c :: r) = true
          · obtain ⟨t, ht⟩ := List.isPrefixOf_iff_prefix.1 hpf
            simp only
            rw [← ht, List.drop_left]
            cases t with
            | nil => simp
            | cons d t =>
              have := hbr p hp u d t (by rw [hu, ← ht]; simp)
              simp [stopCode, stopStd, this]
          · simp only [Bool.not_eq_true] at hpf
            simp only [hpf, Bool.and_false, Bool.false_and]
        have hfind : ((params.map Param.name).zip vals).find? (fun x => formalHere stopCode inS q (c :: r) x.1) =
            ((params.map Param.name).zip vals).find? (fun x => formalHere stopStd inS q (c :: r) x.1) := by
          generalize (params.map Param.name).zip vals = l at hff
          induction l with
          | nil => rfl
          | cons x l ihl =>
            rw [List.find?_cons, List.find?_cons, hff x (by simp), ihl (fun y hy => hff y (List.mem_cons_of_mem _ hy))]
        rw [expandFrom, expandFrom, hfind]
        cases ((params.map Param.name).zip vals).find? (fun x => formalHere stopStd inS q (c :: r) x.1) with
        | none => simp only; rw [ih _ _ _ hu']
        | some x => simp only; rw [ih _ _ _ hu']
  exact key body false none 0 ⟨[], rfl⟩

/-- hypotheses are met by a text with brackets that are not behind a parameter -/
example : ∀ p ∈ [pA], ∀ u b v, c! "f(a)" = u ++ p.name ++ b :: v → isOpenBracket b = false := by
  intro p hp u b v h
  simp at hp
  subst hp
  have h2 : u.length ≤ 3 := by
    have := congrArg List.length h
    simp [pA] at this
    omega
  match u, h2 with
  | [], _ => simp [pA] at h
  | [x], _ => simp [pA] at h
  | [x, y], _ => simp [pA] at h; obtain ⟨_, _, rfl, _⟩ := h; decide
  | [x, y, z], _ => simp [pA] at h

/-- **C10** The number of arguments is checked against the formal parameters and their default values: the call
succeeds exactly if the binding of the specification exists, and fails with a parse error otherwise. -/
theorem C10_argument_check (name : Str) (params : List Param) (body : Str) (args : List Str)
    (hf : FormalsOk params) (hb : endsInString false none body = false) :
    ((∃ out, defineAndExpand name params body args true true = .ok out) ↔ (bindArgs params args).isSome) ∧
    ((∃ m, defineAndExpand name params body args true true = .error (.parse m)) ↔ bindArgs params args = none) := by
  obtain ⟨h1, h2⟩ := expand_core name params body args hf hb
  cases hv : bindArgs params args with
  | none =>
    obtain ⟨m, hm⟩ := h2 hv
    rw [hm]; simp
  | some v =>
    rw [h1 v hv]; simp

/-- **C10** More arguments than formals are always refused, a missing argument without default too. -/
theorem C10_too_many (name : Str) (params : List Param) (body : Str) (args : List Str)
    (hf : FormalsOk params) (hb : endsInString false none body = false) (h : params.length < args.length) :
    ∃ m, defineAndExpand name params body args true true = .error (.parse m) :=
  ((C10_argument_check name params body args hf hb).2).2 (bindArgs_too_many params args h)

/-- **C10** An omitted or empty argument of a formal with a default value stands for the default value, a non-empty
argument is taken as it is. -/
theorem C10_default_value (params : List Param) (args vals : List Str) (hv : bindArgs params args = some vals) (i : Nat)
    (p : Param) (hp : params[i]? = some p) :
    (p.hasDef = true → (args[i]? = none ∨ args[i]? = some []) → vals[i]? = some p.defVal) ∧
    (∀ a, args[i]? = some a → a ≠ [] → vals[i]? = some a) := by
  have key : ∀ (params : List Param) (args vals : List Str) (i : Nat), bindList params args = some vals → params[i]? = some p →
      (p.hasDef = true → (args[i]? = none ∨ args[i]? = some []) → vals[i]? = some p.defVal) ∧
      (∀ a, args[i]? = some a → a ≠ [] → vals[i]? = some a) := by
    intro params
    induction params with
    | nil => intro args vals i _ h; simp at h
    | cons q qs ih =>
      intro args vals i h hp
      cases args with
      | nil =>
        simp only [bindList] at h
        split at h
        · simp only [Option.map_eq_some_iff] at h
          obtain ⟨w, hw, rfl⟩ := h
          cases i with
          | zero => simp at hp; subst hp; simp
          | succ i => simpa using ih [] w i hw (by simpa using hp)
        · simp at h
      | cons a as =>
        simp only [bindList, Option.map_eq_some_iff] at h
        obtain ⟨w, hw, rfl⟩ := h
        cases i with
        | zero =>
          simp at hp; subst hp
          refine ⟨fun h1 h2 => ?_, fun b hb hne => ?_⟩
          · simp at h2; simp [h1, h2]
          · simp at hb; subst hb; simp [hne]
        | succ i => simpa using ih as w i hw (by simpa using hp)
  cases params with
  | nil => simp at hp
  | cons q qs =>
    cases args with
    | cons a as => exact key _ _ _ _ hv hp
    | nil =>
      simp only [bindArgs] at hv
      split at hv
      · exact key _ _ _ _ hv hp
      · rename_i hq
        have := key _ _ _ i hv hp
        refine ⟨fun h1 h2 => this.1 h1 ?_, by simp⟩
        cases i with
        | zero => simp
        | succ i => simp

example : bindArgs [pA, pB] [c! "1"] = some [c! "1", c! "7"] ∧ bindArgs [pA, pB] [] = some [[], c! "7"] ∧
    bindArgs [pB, pA] [c! "1"] = none := by decide

/-- **C10** Braces: a macro with a parameter list needs them, a macro without refuses them. -/
theorem C10_braces (name : Str) (params : List Param) (body : Str) (args : List Str) (hasParams braces : Bool)
    (hf : FormalsOk params) (h : hasParams ≠ braces) (hb : endsInString false none body = false) :
    ∃ m, defineAndExpand name params body args braces hasParams = .error (.parse m) := by
  obtain ⟨fr, hfr, hj⟩ := (parseBody_spec name params body hf).2 hb
  cases hasParams <;> cases braces <;> simp at h <;>
    simp [defineAndExpand, MacroDef.new, hfr, bind, Except.bind, pure, Except.pure, MacroDef.replace]

/-- **C10** For any parameter names (also names that are not identifiers, repeated names, empty names, as a Python
caller can supply), any text and any arguments: the only failure is a parse error; no access outside of the body or of
the argument list happens, and all loops stop. -/
theorem C10_only_parse_errors (name : Str) (params : List Param) (body : Str) (args : List Str) (braces hasParams : Bool) :
    (∃ out, defineAndExpand name params body args braces hasParams = .ok out) ∨
    (∃ m, defineAndExpand name params body args braces hasParams = .error (.parse m)) := by
  rcases parseBody_total name params body with ⟨m, hm⟩ | ⟨fr, hfr, hb⟩
  · exact .inr ⟨m, by simp [defineAndExpand, MacroDef.new, hm, bind, Except.bind]⟩
  · simp only [defineAndExpand, MacroDef.new, hfr, bind, Except.bind, pure, Except.pure, MacroDef.replace]
    split
    · exact .inr ⟨_, rfl⟩
    split
    · exact .inr ⟨_, rfl⟩
    split
    · rename_i hle
      obtain ⟨h1, h2⟩ := completeArgs_spec name params args hle
      cases hv : bindArgs params args with
      | none =>
        obtain ⟨m, hm⟩ := h2 hv
        exact .inr ⟨m, by rw [hm]⟩
      | some v =>
        obtain ⟨s, hs⟩ := joinFrags_ok v fr (by rw [bindArgs_length hv]; exact hb)
        exact .inl ⟨s, by rw [h1 v hv]; exact hs⟩
    · exact .inr ⟨_, rfl⟩

/-- **C50, violated**: the text `"a\\"` is a complete string (its last character is a backslash), but the definition is
refused as an unterminated string. -/
theorem C50_violated_witness :
    MacroDef.new (c! "M") false [] (c! "\"a\\\\\"") =
      .error (.parse (c! "Unfinished string in definition of macro M.")) := by decide

/-- **C50, the part that holds**: a macro text without backslashes and back-ticks is accepted exactly if its number of
quotes is even. Missing: texts with escapes, where the claim is false. -/
theorem C50_strings_terminated_partial (name : Str) (params : List Param) (body : Str) (hasParams : Bool)
    (h1 : '\\' ∉ body) (h2 : '`' ∉ body) :
    (∃ m, MacroDef.new name hasParams params body = .ok m) ↔ (body.count '"') % 2 = 0 := by
  have hcount : ∀ (s : Str) b q, '\\' ∉ s → '`' ∉ s → q ≠ some '\\' → q ≠ some '`' →
      (endsInString b q s = true ↔ (s.count '"' + (if b then 1 else 0)) % 2 = 1) := by
    intro s
    induction s with
    | nil => intro b q _ _ _ _; cases b <;> simp [endsInString]
    | cons c r ih =>
      intro b q h1 h2 h3 h4
      simp only [List.mem_cons, not_or] at h1 h2
      rw [endsInString, ih _ _ h1.2 h2.2 (by simpa using fun h => h1.1 h.symm) (by simpa using fun h => h2.1 h.symm)]
      by_cases hc : c = '"'
      · subst hc
        have : isQuote q '"' = true := by simp [isQuote, h3, h4]
        rw [this, List.count_cons_self]
        cases b
        · simp
        · simp; omega
      · have : isQuote q c = false := by simp [isQuote, hc]
        rw [this, List.count_cons_of_ne hc]
        cases b <;> simp
  have hc := hcount body false none h1 h2 (by simp) (by simp)
  simp only [Bool.false_eq_true, if_false, Nat.add_zero] at hc
  have hcs := collectStringIntervals_spec name body
  constructor
  · rintro ⟨m, hm⟩
    by_contra hodd
    have he := hc.2 (by omega)
    rw [if_pos he] at hcs
    simp [MacroDef.new, parseBody, hcs, bind, Except.bind] at hm
  · intro heven
    have he : endsInString false none body = false := by
      rw [← Bool.not_eq_true, hc]; omega
    rw [if_neg (by simp [he])] at hcs
    obtain ⟨ints, hi, _⟩ := hcs
    rcases parseBody_total name params body with ⟨m, hm⟩ | ⟨fr, hfr, -⟩
    · exfalso
      by_cases hb : body = []
      · subst hb; simp [parseBody, hi, bind, Except.bind, pure, Except.pure] at hm
      · by_cases hp : params = []
        · simp [parseBody, hi, hb, hp, bind, Except.bind, pure, Except.pure] at hm
        · obtain ⟨ints', hi', hi2, -⟩ := (show ∃ ints, collectStringIntervals name body = .ok ints ∧
              (∀ p ∈ ints, p.1 + p.2 ≤ body.length) ∧ True from by
            have := collectStringIntervals_spec name body
            rw [if_neg (by simp [he])] at this
            obtain ⟨a, b, c, _⟩ := this
            exact ⟨a, b, c, trivial⟩)
          obtain ⟨us, hu1, hu2, hu3⟩ := allUsages_spec body ints' hi2 0 params
          obtain ⟨hs1, hs2⟩ := insertionSort_pairLe us
          obtain ⟨fr, h1, _⟩ := cutBody_ok params body 0 (us.insertionSort pairLe) (by omega) (by
            rintro ⟨j, k⟩ hm
            rw [hs2.mem_iff, hu3] at hm
            obtain ⟨_, p, hp1, hp2, hp3⟩ := hm
            refine ⟨p, by simpa using hp1, ?_⟩
            simp only [Occ, Bool.and_eq_true] at hp3
            exact prefix_len hp2 (List.isPrefixOf_iff_prefix.1 hp3.1.1.1))
          simp [parseBody, hi', hb, hp, hu1, bind, Except.bind, h1] at hm
    · exact ⟨_, by simp [MacroDef.new, hfr, bind, Except.bind, pure, Except.pure]; rfl⟩

example : '\\' ∉ c! "$display(\"x\");" ∧ '`' ∉ c! "$display(\"x\");" ∧ ((c! "$display(\"x\");").count '"') % 2 = 0 := by decide

end Verif
