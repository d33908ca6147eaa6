import Verif.Vhdl.Grammar
/-!
# Parses of the grammar rules: combinators, brackets
-/
namespace Verif.Vhdl
open P

variable {α β : Type}

theorem bind_apply (p : P α) (f : α → P β) (ts : List VTok) : (p >>= f) ts = (p ts).flatMap fun x => f x.1 x.2 := rfl
theorem pure_apply (a : α) (ts : List VTok) : (pure a : P α) ts = [(a, ts)] := rfl
theorem or_apply (p q : P α) (ts : List VTok) : P.or p q ts = p ts ++ q ts := rfl
theorem fail_apply (ts : List VTok) : (P.fail : P α) ts = [] := rfl

theorem mem_pure {a : α} {ts : List VTok} {x : α × List VTok} : x ∈ (pure a : P α) ts ↔ x = (a, ts) := by
  simp [pure_apply]

theorem mem_bind {p : P α} {f : α → P β} {ts : List VTok} {x : β × List VTok} :
    x ∈ (p >>= f) ts ↔ ∃ a r, (a, r) ∈ p ts ∧ x ∈ f a r := by
  simp [bind_apply, List.mem_flatMap]

theorem mem_or {p q : P α} {ts : List VTok} {x : α × List VTok} : x ∈ P.or p q ts ↔ x ∈ p ts ∨ x ∈ q ts := by
  simp [or_apply]

theorem alts_apply (l : List (P α)) (ts : List VTok) : alts l ts = l.flatMap fun p => p ts := by
  induction l with
  | nil => rfl
  | cons p l ih =>
    cases l with
    | nil => simp [alts]
    | cons q l => simp only [alts, or_apply] at ih ⊢; rw [ih]; rfl

theorem mem_alts {l : List (P α)} {ts : List VTok} {x : α × List VTok} : x ∈ alts l ts ↔ ∃ p ∈ l, x ∈ p ts := by
  simp [alts_apply, List.mem_flatMap]

theorem tok_cons (t : VT) (x : VTok) (r : List VTok) : tok t (x :: r) = if x.ty = t then [(x.text, r)] else [] := rfl
theorem tok_nil (t : VT) : tok t [] = [] := rfl

theorem tok_pos {t : VT} {x : VTok} (h : x.ty = t) (r : List VTok) : tok t (x :: r) = [(x.text, r)] := by
  rw [tok_cons, if_pos h]
theorem tok_neg {t : VT} {x : VTok} (h : x.ty ≠ t) (r : List VTok) : tok t (x :: r) = [] := by
  rw [tok_cons, if_neg h]

theorem mem_tok {t : VT} {ts : List VTok} {x : Str × List VTok} :
    x ∈ tok t ts ↔ ∃ y, ts = y :: x.2 ∧ y.ty = t ∧ y.text = x.1 := by
  cases ts with
  | nil => simp [tok_nil]
  | cons y r =>
    rw [tok_cons]
    split
    · rename_i h
      simp only [List.mem_singleton, List.cons.injEq]
      constructor
      · rintro rfl; exact ⟨y, ⟨rfl, rfl⟩, h, rfl⟩
      · rintro ⟨z, ⟨rfl, rfl⟩, -, h2⟩; rw [h2]
    · rename_i h
      simp only [List.not_mem_nil, List.cons.injEq, false_iff]
      rintro ⟨z, ⟨rfl, -⟩, h2, -⟩
      exact h h2

theorem mem_toks {l : List (VT × α)} {ts : List VTok} {x : α × List VTok} :
    x ∈ toks l ts ↔ ∃ y, ts = y :: x.2 ∧ (y.ty, x.1) ∈ l := by
  simp only [toks, mem_alts, List.mem_map]
  constructor
  · rintro ⟨p, ⟨q, hq, rfl⟩, hp⟩
    obtain ⟨s, r, h1, h2⟩ := mem_bind.1 hp
    rw [mem_pure] at h2
    obtain ⟨y, h3, h4, -⟩ := mem_tok.1 h1
    subst h2
    exact ⟨y, h3, by rw [h4]; exact hq⟩
  · rintro ⟨y, h1, h2⟩
    refine ⟨_, ⟨_, h2, rfl⟩, mem_bind.2 ⟨y.text, x.2, mem_tok.2 ⟨y, h1, rfl, rfl⟩, ?_⟩⟩
    rw [mem_pure]

theorem toks_nil (l : List (VT × α)) : toks l [] = [] := by
  apply List.eq_nil_iff_forall_not_mem.2
  intro x hx
  obtain ⟨y, h, -⟩ := mem_toks.1 hx
  cases h

/-- A token which is not in the list. -/
theorem toks_neg {l : List (VT × α)} {x : VTok} (h : ∀ a, (x.ty, a) ∉ l) (r : List VTok) : toks l (x :: r) = [] := by
  apply List.eq_nil_iff_forall_not_mem.2
  intro y hy
  obtain ⟨z, h1, h2⟩ := mem_toks.1 hy
  cases h1
  exact h _ h2

/-! ## A relation between the tokens and the rest -/

/-- All parses take the tokens to a rest in the relation. -/
def Snd (R : List VTok → List VTok → Prop) (p : P α) : Prop := ∀ ts x, x ∈ p ts → R ts x.2

/-- A relation for which sequences work. -/
structure Rel (R : List VTok → List VTok → Prop) : Prop where
  refl : ∀ ts, R ts ts
  trans : ∀ a b c, R a b → R b c → R a c

section
variable {R : List VTok → List VTok → Prop}

theorem Snd.mono {R' : List VTok → List VTok → Prop} {p : P α} (h : Snd R p) (hr : ∀ a b, R a b → R' a b) : Snd R' p :=
  fun ts x hx => hr _ _ (h ts x hx)

theorem Snd.ret (hR : Rel R) (a : α) : Snd R (pure a : P α) := by
  intro ts x hx; rw [mem_pure] at hx; subst hx; exact hR.refl _

theorem Snd.bind (hR : Rel R) {p : P α} {f : α → P β} (hp : Snd R p) (hf : ∀ a, Snd R (f a)) : Snd R (p >>= f) := by
  intro ts x hx
  obtain ⟨a, r, h1, h2⟩ := mem_bind.1 hx
  exact hR.trans _ _ _ (hp _ _ h1) (hf a _ _ h2)

theorem Snd.or {p q : P α} (hp : Snd R p) (hq : Snd R q) : Snd R (P.or p q) := by
  intro ts x hx
  rcases mem_or.1 hx with h | h
  · exact hp _ _ h
  · exact hq _ _ h

theorem Snd.fail : Snd R (P.fail : P α) := by intro ts x hx; cases hx

theorem Snd.alts {l : List (P α)} (h : ∀ p ∈ l, Snd R p) : Snd R (alts l) := by
  intro ts x hx
  obtain ⟨p, hp, hx⟩ := mem_alts.1 hx
  exact h p hp _ _ hx

theorem Snd.opt (hR : Rel R) {p : P α} (hp : Snd R p) : Snd R (opt p) :=
  Snd.or (Snd.bind hR hp fun _ => Snd.ret hR _) (Snd.ret hR _)

theorem Snd.manyN (hR : Rel R) {p : P α} (hp : Snd R p) : ∀ n, Snd R (manyN p n)
  | 0 => Snd.ret hR _
  | n + 1 => Snd.or (Snd.bind hR hp fun _ => Snd.bind hR (Snd.manyN hR hp n) fun _ => Snd.ret hR _) (Snd.ret hR _)

theorem Snd.many (hR : Rel R) {p : P α} (hp : Snd R p) : Snd R (many p) := fun ts x hx => Snd.manyN hR hp _ ts x hx

theorem Snd.loopN (hR : Rel R) {f : α → P α} (hf : ∀ a, Snd R (f a)) : ∀ n a, Snd R (loopN f n a)
  | 0, a => Snd.ret hR a
  | n + 1, a => Snd.or (Snd.bind hR (hf a) fun b => Snd.loopN hR hf n b) (Snd.ret hR a)

theorem Snd.loop (hR : Rel R) {f : α → P α} (hf : ∀ a, Snd R (f a)) (a : α) : Snd R (loop f a) :=
  fun ts x hx => Snd.loopN hR hf _ a ts x hx

theorem Snd.sepBy (hR : Rel R) {s : VT} {p : P α} (hs : Snd R (tok s)) (hp : Snd R p) : Snd R (sepBy s p) :=
  Snd.bind hR hp fun _ => Snd.bind hR (Snd.many hR (Snd.bind hR hs fun _ => hp)) fun _ => Snd.ret hR _

theorem Snd.prec {p : P α} (hp : Snd R p) (a b : Nat) : Snd R (prec a b p) := by
  unfold Vhdl.prec; split
  · exact hp
  · exact Snd.fail

end

/-! ## Brackets -/

/-- Opening brackets. -/
def isOpen : VT → Bool
  | .LPAREN => true
  | .LSQUARE_BR => true
  | .SHIFT_LEFT => true
  | _ => false
/-- Closing brackets. -/
def isClose : VT → Bool
  | .RPAREN => true
  | .RSQUARE_BR => true
  | .SHIFT_RIGHT => true
  | _ => false
/-- Tokens which can name an attribute. -/
def isDesig : VT → Bool
  | .BASIC_IDENTIFIER => true
  | .EXTENDED_IDENTIFIER => true
  | .kw _ => true
  | _ => false

/-- Brackets match. -/
inductive Bal : List VTok → Prop
  | nil : Bal []
  | atom {t : VTok} {w : List VTok} (h1 : isOpen t.ty = false) (h2 : isClose t.ty = false) (h : Bal w) : Bal (t :: w)
  | grp {o c : VTok} {u w : List VTok} (h1 : isOpen o.ty = true) (h2 : isClose c.ty = true) (hu : Bal u) (h : Bal w) :
      Bal (o :: (u ++ c :: w))

/-- Brackets match, and outside of brackets there is no token of `S` but as name of an attribute. -/
inductive Flat (S : VT → Bool) : List VTok → Prop
  | nil : Flat S []
  | atom {t : VTok} {w : List VTok} (h1 : isOpen t.ty = false) (h2 : isClose t.ty = false) (h3 : t.ty ≠ .APOSTROPHE)
      (h4 : S t.ty = false) (h : Flat S w) : Flat S (t :: w)
  | attr {a t : VTok} {w : List VTok} (h1 : a.ty = .APOSTROPHE) (h2 : isDesig t.ty = true) (h : Flat S w) : Flat S (a :: t :: w)
  | qual {a t : VTok} {w : List VTok} (h1 : a.ty = .APOSTROPHE) (h2 : isOpen t.ty = true) (h : Flat S (t :: w)) :
      Flat S (a :: t :: w)
  | grp {o c : VTok} {u w : List VTok} (h1 : isOpen o.ty = true) (h2 : isClose c.ty = true) (hu : Bal u) (h : Flat S w) :
      Flat S (o :: (u ++ c :: w))

theorem Bal.append {u v : List VTok} (hu : Bal u) (hv : Bal v) : Bal (u ++ v) := by
  induction hu with
  | nil => exact hv
  | atom h1 h2 _ ih => exact .atom h1 h2 ih
  | grp h1 h2 hu _ _ ih => rw [List.cons_append, List.append_assoc]; exact .grp h1 h2 hu ih

theorem Flat.append {S : VT → Bool} {u v : List VTok} (hu : Flat S u) (hv : Flat S v) : Flat S (u ++ v) := by
  induction hu with
  | nil => exact hv
  | atom h1 h2 h3 h4 _ ih => exact .atom h1 h2 h3 h4 ih
  | attr h1 h2 _ ih => exact .attr h1 h2 ih
  | qual h1 h2 _ ih => exact .qual h1 h2 ih
  | grp h1 h2 hu _ ih => rw [List.cons_append, List.append_assoc]; exact .grp h1 h2 hu ih

theorem desig_not_bracket {t : VT} (h : isDesig t = true) : isOpen t = false ∧ isClose t = false := by
  cases t <;> simp_all [isDesig, isOpen, isClose]

theorem Flat.bal {S : VT → Bool} {u : List VTok} (hu : Flat S u) : Bal u := by
  induction hu with
  | nil => exact .nil
  | atom h1 h2 h3 h4 _ ih => exact .atom h1 h2 ih
  | attr h1 h2 _ ih =>
    exact .atom (by rw [h1]; rfl) (by rw [h1]; rfl) (.atom (desig_not_bracket h2).1 (desig_not_bracket h2).2 ih)
  | qual h1 h2 _ ih => exact .atom (by rw [h1]; rfl) (by rw [h1]; rfl) ih
  | grp h1 h2 hu _ ih => exact .grp h1 h2 hu ih

theorem Flat.mono {S S' : VT → Bool} (hS : ∀ t, S' t = true → S t = true) {u : List VTok} (hu : Flat S u) : Flat S' u := by
  induction hu with
  | nil => exact .nil
  | @atom t w h1 h2 h3 h4 _ ih =>
    refine .atom h1 h2 h3 ?_ ih
    cases h : S' t.ty with
    | false => rfl
    | true => rw [hS _ h] at h4; exact h4
  | attr h1 h2 _ ih => exact .attr h1 h2 ih
  | qual h1 h2 _ ih => exact .qual h1 h2 ih
  | grp h1 h2 hu _ ih => exact .grp h1 h2 hu ih

/-- The tokens from the closing bracket that ends `d` open brackets more. -/
def closeAt : Nat → List VTok → List VTok
  | _, [] => []
  | d, t :: r =>
    if isOpen t.ty then closeAt (d + 1) r
    else if isClose t.ty then (if d = 0 then t :: r else closeAt (d - 1) r)
    else closeAt d r

theorem Bal.closeAt {u : List VTok} (hu : Bal u) : ∀ (d : Nat) (x : List VTok), closeAt d (u ++ x) = closeAt d x := by
  induction hu with
  | nil => intros; rfl
  | @atom t w h1 h2 _ ih =>
    intro d x
    rw [List.cons_append, Vhdl.closeAt, h1, h2]
    simpa using ih d x
  | @grp o c u w h1 h2 _ _ ihu ih =>
    intro d x
    have hc : isOpen c.ty = false := by
      cases h : c.ty <;> simp_all [isOpen, isClose]
    rw [List.cons_append, List.append_assoc, Vhdl.closeAt, if_pos h1, ihu, List.cons_append, Vhdl.closeAt, hc, h2]
    simpa using ih d x

/-- The end of a group is unique. -/
theorem Bal.unique {u v x y : List VTok} {c d : VTok} (hu : Bal u) (hv : Bal v) (hc : isClose c.ty = true) (hd : isClose d.ty = true)
    (h : u ++ c :: x = v ++ d :: y) : u = v ∧ c = d ∧ x = y := by
  have co : ∀ c : VTok, isClose c.ty = true → isOpen c.ty = false := by
    intro c hc; cases h : c.ty <;> simp_all [isOpen, isClose]
  have e1 : Vhdl.closeAt 0 (u ++ c :: x) = c :: x := by
    rw [hu.closeAt, Vhdl.closeAt, co c hc, hc]; simp
  have e2 : Vhdl.closeAt 0 (v ++ d :: y) = d :: y := by
    rw [hv.closeAt, Vhdl.closeAt, co d hd, hd]; simp
  rw [h, e2] at e1
  rw [e1] at h
  have e3 : u = v := List.append_cancel_right h
  cases e1
  exact ⟨e3, rfl, rfl⟩

/-- The tokens from the first one of `S` outside of brackets, or the closing bracket that ends `d` open brackets more. -/
def stop (S : VT → Bool) : Nat → List VTok → List VTok
  | _, [] => []
  | d, t :: r =>
    if isOpen t.ty then stop S (d + 1) r
    else if isClose t.ty then (if d = 0 then t :: r else stop S (d - 1) r)
    else if d = 0 then
      if t.ty = .APOSTROPHE then
        match r with
        | [] => []
        | x :: r' => if isDesig x.ty then stop S 0 r' else stop S 0 (x :: r')
      else if S t.ty then t :: r
      else stop S 0 r
    else stop S d r

theorem stop_cons (S : VT → Bool) (d : Nat) (t : VTok) (r : List VTok) : stop S d (t :: r) =
    if isOpen t.ty then stop S (d + 1) r
    else if isClose t.ty then (if d = 0 then t :: r else stop S (d - 1) r)
    else if d = 0 then
      if t.ty = .APOSTROPHE then
        match r with
        | [] => []
        | x :: r' => if isDesig x.ty then stop S 0 r' else stop S 0 (x :: r')
      else if S t.ty then t :: r
      else stop S 0 r
    else stop S d r := by
  rw [stop.eq_def]

theorem Bal.stop {S : VT → Bool} {u : List VTok} (hu : Bal u) :
    ∀ (d : Nat) (x : List VTok), stop S (d + 1) (u ++ x) = stop S (d + 1) x := by
  induction hu with
  | nil => intros; rfl
  | @atom t w h1 h2 _ ih =>
    intro d x
    rw [List.cons_append, stop_cons, h1, h2]
    simpa using ih d x
  | @grp o c u w h1 h2 _ _ ihu ih =>
    intro d x
    have hc : isOpen c.ty = false := by
      cases h : c.ty <;> simp_all [isOpen, isClose]
    rw [List.cons_append, List.append_assoc, stop_cons, if_pos h1, ihu, List.cons_append, stop_cons, hc, h2]
    simpa using ih d x

theorem Flat.stop {S : VT → Bool} {u : List VTok} (hu : Flat S u) : ∀ x : List VTok, stop S 0 (u ++ x) = stop S 0 x := by
  induction hu with
  | nil => intros; rfl
  | @atom t w h1 h2 h3 h4 _ ih =>
    intro x
    rw [List.cons_append, stop_cons, h1, h2, h4]
    simpa [h3] using ih x
  | @attr a t w h1 h2 _ ih =>
    intro x
    rw [List.cons_append, List.cons_append, stop_cons, h1]
    simpa [isOpen, isClose, h2] using ih x
  | @qual a t w h1 h2 _ ih =>
    intro x
    have ht : isDesig t.ty = false := by
      cases h : t.ty <;> simp_all [isOpen, isDesig]
    rw [List.cons_append, List.cons_append, stop_cons, h1]
    simpa [isOpen, isClose, ht] using ih x
  | @grp o c u w h1 h2 hu _ ih =>
    intro x
    have hc : isOpen c.ty = false := by
      cases h : c.ty <;> simp_all [isOpen, isClose]
    rw [List.cons_append, List.append_assoc, stop_cons, if_pos h1, hu.stop, List.cons_append, stop_cons, hc, h2]
    simpa using ih x

/-- The next token ends a flat sequence. -/
def Stops (S : VT → Bool) (r : List VTok) : Prop := ∃ t s, r = t :: s ∧ (isClose t.ty = true ∨ S t.ty = true)

/-- `S` has no brackets and no apostrophe. -/
def Seps (S : VT → Bool) : Prop := ∀ t, S t = true → isOpen t = false ∧ t ≠ .APOSTROPHE

theorem Stops.stop {S : VT → Bool} (hS : Seps S) {r : List VTok} (h : Stops S r) : Vhdl.stop S 0 r = r := by
  obtain ⟨t, s, rfl, h⟩ := h
  rw [stop_cons]
  rcases h with h | h
  · have : isOpen t.ty = false := by cases h : t.ty <;> simp_all [isOpen, isClose]
    simp [this, h]
  · have := hS _ h
    rw [this.1]
    simp [this.2, h]

/-- Two flat beginnings of the same tokens, each up to a separator, are the same. -/
theorem Flat.unique {S : VT → Bool} (hS : Seps S) {u v r s : List VTok} (hu : Flat S u) (hv : Flat S v) (hr : Stops S r)
    (hs : Stops S s) (h : u ++ r = v ++ s) : u = v ∧ r = s := by
  have e := congrArg (Vhdl.stop S 0) h
  rw [hu.stop, hv.stop, hr.stop hS, hs.stop hS] at e
  subst e
  exact ⟨List.append_cancel_right h, rfl⟩

/-! ## The rules keep brackets together -/

/-- The rest after matching brackets. -/
def BalR (ts r : List VTok) : Prop := ∃ u, ts = u ++ r ∧ Bal u
/-- The rest after a flat sequence. -/
def FlatR (S : VT → Bool) (ts r : List VTok) : Prop := ∃ u, ts = u ++ r ∧ Flat S u

theorem balR_rel : Rel BalR where
  refl ts := ⟨[], rfl, .nil⟩
  trans := by
    rintro a b c ⟨u, rfl, hu⟩ ⟨v, rfl, hv⟩
    exact ⟨u ++ v, by simp, hu.append hv⟩

theorem flatR_rel (S : VT → Bool) : Rel (FlatR S) where
  refl ts := ⟨[], rfl, .nil⟩
  trans := by
    rintro a b c ⟨u, rfl, hu⟩ ⟨v, rfl, hv⟩
    exact ⟨u ++ v, by simp, hu.append hv⟩

theorem FlatR.bal {S : VT → Bool} {a b : List VTok} (h : FlatR S a b) : BalR a b := by
  obtain ⟨u, h1, h2⟩ := h; exact ⟨u, h1, h2.bal⟩

theorem FlatR.mono {S S' : VT → Bool} (hS : ∀ t, S' t = true → S t = true) {a b : List VTok} (h : FlatR S a b) : FlatR S' a b := by
  obtain ⟨u, h1, h2⟩ := h; exact ⟨u, h1, h2.mono hS⟩

theorem tok_bal {t : VT} (h1 : isOpen t = false) (h2 : isClose t = false) : Snd BalR (tok t) := by
  intro ts x hx
  obtain ⟨y, h, h3, -⟩ := mem_tok.1 hx
  exact ⟨[y], h, .atom (by rw [h3]; exact h1) (by rw [h3]; exact h2) .nil⟩

theorem tok_flat {S : VT → Bool} {t : VT} (h1 : isOpen t = false) (h2 : isClose t = false) (h3 : t ≠ .APOSTROPHE) (h4 : S t = false) :
    Snd (FlatR S) (tok t) := by
  intro ts x hx
  obtain ⟨y, h, h5, -⟩ := mem_tok.1 hx
  exact ⟨[y], h, .atom (by rw [h5]; exact h1) (by rw [h5]; exact h2) (by rw [h5]; exact h3) (by rw [h5]; exact h4) .nil⟩

theorem toks_bal {l : List (VT × α)} (h : ∀ x ∈ l, isOpen x.1 = false ∧ isClose x.1 = false) : Snd BalR (toks l) := by
  intro ts x hx
  obtain ⟨y, h1, h2⟩ := mem_toks.1 hx
  exact ⟨[y], h1, .atom (h _ h2).1 (h _ h2).2 .nil⟩

theorem toks_flat {S : VT → Bool} {l : List (VT × α)}
    (h : ∀ x ∈ l, isOpen x.1 = false ∧ isClose x.1 = false ∧ x.1 ≠ .APOSTROPHE ∧ S x.1 = false) : Snd (FlatR S) (toks l) := by
  intro ts x hx
  obtain ⟨y, h1, h2⟩ := mem_toks.1 hx
  exact ⟨[y], h1, .atom (h _ h2).1 (h _ h2).2.1 (h _ h2).2.2.1 (h _ h2).2.2.2 .nil⟩

/-- A group in brackets. -/
theorem grp_bal {γ : Type} {o c : VT} (ho : isOpen o = true) (hc : isClose c = true) {p : P α} {f : α → P γ} (hp : Snd BalR p)
    (hf : ∀ a, Snd BalR (f a)) : Snd BalR (tok o >>= fun _ => p >>= fun a => tok c >>= fun _ => f a) := by
  intro ts x hx
  obtain ⟨s1, r, h1, hx1⟩ := mem_bind.1 hx
  obtain ⟨a, r2, h2, hx2⟩ := mem_bind.1 hx1
  obtain ⟨s3, r3, h3, hx3⟩ := mem_bind.1 hx2
  obtain ⟨y, e1, hy, -⟩ := mem_tok.1 h1
  obtain ⟨u, e2, hu⟩ := hp _ _ h2
  obtain ⟨z, e3, hz, -⟩ := mem_tok.1 h3
  obtain ⟨v, e4, hv⟩ := hf a _ _ hx3
  simp only at e1 e2 e3 e4
  subst e4; subst e3; subst e2; subst e1
  exact ⟨y :: (u ++ z :: v), by simp, .grp (by rw [hy]; exact ho) (by rw [hz]; exact hc) hu hv⟩

theorem grp_flat {γ : Type} {S : VT → Bool} {o c : VT} (ho : isOpen o = true) (hc : isClose c = true) {p : P α} {f : α → P γ}
    (hp : Snd BalR p) (hf : ∀ a, Snd (FlatR S) (f a)) :
    Snd (FlatR S) (tok o >>= fun _ => p >>= fun a => tok c >>= fun _ => f a) := by
  intro ts x hx
  obtain ⟨s1, r, h1, hx1⟩ := mem_bind.1 hx
  obtain ⟨a, r2, h2, hx2⟩ := mem_bind.1 hx1
  obtain ⟨s3, r3, h3, hx3⟩ := mem_bind.1 hx2
  obtain ⟨y, e1, hy, -⟩ := mem_tok.1 h1
  obtain ⟨u, e2, hu⟩ := hp _ _ h2
  obtain ⟨z, e3, hz, -⟩ := mem_tok.1 h3
  obtain ⟨v, e4, hv⟩ := hf a _ _ hx3
  simp only at e1 e2 e3 e4
  subst e4; subst e3; subst e2; subst e1
  exact ⟨y :: (u ++ z :: v), by simp, .grp (by rw [hy]; exact ho) (by rw [hz]; exact hc) hu hv⟩

/-- Separators of expressions, tokens of statements behind expressions, and `new`. -/
def S2 : VT → Bool
  | .COMMA => true
  | .ARROW => true
  | .BAR => true
  | .kw .TO => true
  | .kw .DOWNTO => true
  | .kw .NEW => true
  | .SEMI => true
  | .VARASGN => true
  | .COLON => true
  | .kw .WHEN => true
  | .kw .ELSE => true
  | .kw .ELSIF => true
  | .kw .THEN => true
  | .kw .LOOP => true
  | .kw .IS => true
  | .kw .AFTER => true
  | .kw .SELECT => true
  | .kw .REPORT => true
  | .kw .SEVERITY => true
  | .kw .GENERATE => true
  | .kw .UNTIL => true
  | .kw .FOR => true
  | _ => false
/-- Separators of elements and of statements. -/
def S1 : VT → Bool
  | .COMMA => true
  | .ARROW => true
  | .SEMI => true
  | .VARASGN => true
  | .COLON => true
  | .kw .WHEN => true
  | .kw .ELSE => true
  | .kw .ELSIF => true
  | .kw .THEN => true
  | .kw .LOOP => true
  | .kw .IS => true
  | .kw .AFTER => true
  | .kw .SELECT => true
  | .kw .REPORT => true
  | .kw .SEVERITY => true
  | .kw .GENERATE => true
  | .kw .UNTIL => true
  | .kw .FOR => true
  | _ => false

theorem S1_S2 : ∀ t, S1 t = true → S2 t = true := by
  intro t h; unfold S1 at h; split at h <;> first | rfl | cases h

theorem seps_S2 : Seps S2 := by
  intro t h; unfold S2 at h; split at h <;> first | exact ⟨rfl, by decide⟩ | cases h
theorem seps_S1 : Seps S1 := fun t h => seps_S2 t (S1_S2 t h)

/-- The rest after a flat sequence, or after one with `new` and then anything. -/
def FlatN (ts r : List VTok) : Prop :=
  FlatR S1 ts r ∧ (FlatR S2 ts r ∨ ∃ t s, FlatR S2 ts (t :: s) ∧ t.ty = .kw .NEW)

theorem flatN_rel : Rel FlatN where
  refl ts := ⟨(flatR_rel S1).refl ts, .inl ((flatR_rel S2).refl ts)⟩
  trans := by
    rintro a b c ⟨h1, h2⟩ ⟨h3, h4⟩
    refine ⟨(flatR_rel S1).trans _ _ _ h1 h3, ?_⟩
    rcases h2 with h2 | h2
    · rcases h4 with h4 | ⟨t, s, h4, h5⟩
      · exact .inl ((flatR_rel S2).trans _ _ _ h2 h4)
      · exact .inr ⟨t, s, (flatR_rel S2).trans _ _ _ h2 h4, h5⟩
    · exact .inr h2

/-- The rules keep brackets together. -/
structure Sound (E : Env) : Prop where
  name : Snd (FlatR S2) E.name
  expression : ∀ p, Snd FlatN (E.expression p)
  simple : ∀ p, Snd FlatN (E.simple p)
  subInd : Snd (FlatR S1) E.subInd
  elemC : Snd (FlatR S1) E.elemC
  resol : Snd (FlatR S1) E.resol

theorem Snd.bal {S : VT → Bool} {p : P α} (h : Snd (FlatR S) p) : Snd BalR p := h.mono fun _ _ => FlatR.bal
theorem Snd.s1 {p : P α} (h : Snd (FlatR S2) p) : Snd (FlatR S1) p := h.mono fun _ _ => FlatR.mono S1_S2
theorem Snd.n {p : P α} (h : Snd (FlatR S2) p) : Snd FlatN p := h.mono fun _ _ h => ⟨h.mono S1_S2, .inl h⟩
theorem Snd.ns1 {p : P α} (h : Snd FlatN p) : Snd (FlatR S1) p := h.mono fun _ _ h => h.1

section
variable {S : VT → Bool}

theorem identifier_flat : Snd (FlatR S2) identifier :=
  Snd.or (tok_flat rfl rfl (by decide) rfl) (tok_flat rfl rfl (by decide) rfl)

theorem nameLit_flat : Snd (FlatR S2) nameLit := by
  refine Snd.alts fun p hp => ?_
  have hR := flatR_rel S2
  simp only [List.mem_cons, List.not_mem_nil, or_false] at hp
  rcases hp with rfl | rfl | rfl
  · exact Snd.bind hR identifier_flat fun _ => Snd.ret hR _
  · exact Snd.bind hR (tok_flat rfl rfl (by decide) rfl) fun _ => Snd.ret hR _
  · exact Snd.bind hR (tok_flat rfl rfl (by decide) rfl) fun _ => Snd.ret hR _

theorem suffix_flat : Snd (FlatR S2) suffix := by
  have hR := flatR_rel S2
  exact Snd.or (Snd.bind hR nameLit_flat fun _ => Snd.ret hR _)
    (Snd.bind hR (tok_flat rfl rfl (by decide) rfl) fun _ => Snd.ret hR _)

theorem mem_attributeDesignator {ts : List VTok} {x : Str × List VTok} (h : x ∈ attributeDesignator ts) :
    ∃ y, ts = y :: x.2 ∧ isDesig y.ty = true ∧ y.text = x.1 := by
  rcases mem_or.1 h with h | h
  · rcases mem_or.1 h with h | h <;>
    · obtain ⟨y, h1, h2, h3⟩ := mem_tok.1 h
      exact ⟨y, h1, by rw [h2]; rfl, h3⟩
  · obtain ⟨p, hp, hx⟩ := mem_alts.1 h
    obtain ⟨k, -, rfl⟩ := List.mem_map.1 hp
    obtain ⟨y, h1, h2, h3⟩ := mem_tok.1 hx
    exact ⟨y, h1, by rw [h2]; rfl, h3⟩

theorem attr_flat {γ : Type} {f : Str → P γ} (hf : ∀ a, Snd (FlatR S) (f a)) :
    Snd (FlatR S) (tok .APOSTROPHE >>= fun _ => attributeDesignator >>= f) := by
  intro ts x hx
  obtain ⟨s1, r, h1, hx1⟩ := mem_bind.1 hx
  obtain ⟨a, r2, h2, hx2⟩ := mem_bind.1 hx1
  obtain ⟨y, e1, hy, -⟩ := mem_tok.1 h1
  obtain ⟨z, e2, hz, -⟩ := mem_attributeDesignator h2
  obtain ⟨v, e3, hv⟩ := hf a _ _ hx2
  simp only at e1 e2 e3
  subst e3; subst e2; subst e1
  exact ⟨y :: z :: v, rfl, .attr hy hz hv⟩

variable {E : Env} (hE : Sound E)
include hE

theorem explicitRange_s1 : Snd (FlatR S1) (explicitRange E) := by
  have hR := flatR_rel S1
  exact Snd.bind hR (hE.simple 0).ns1 fun _ => Snd.bind hR (toks_flat (by decide)) fun _ => Snd.bind hR (hE.simple 0).ns1 fun _ =>
    Snd.ret hR _

theorem nameSlicePart_flat : Snd (FlatR S2) (nameSlicePart E) := by
  have hR := flatR_rel S2
  exact grp_flat rfl rfl (explicitRange_s1 hE).bal fun _ => Snd.ret hR _

omit hE in
theorem sepBy_bal {s : VT} {p : P α} (h1 : isOpen s = false) (h2 : isClose s = false) (hp : Snd BalR p) : Snd BalR (sepBy s p) :=
  Snd.sepBy balR_rel (tok_bal h1 h2) hp

theorem signature_flat (S : VT → Bool) : Snd (FlatR S) (signature E) := by
  intro ts x hx
  obtain ⟨s1, r, h1, hx⟩ := mem_bind.1 hx
  obtain ⟨s2, r2, h2, hx⟩ := mem_bind.1 hx
  obtain ⟨s3, r3, h3, hx⟩ := mem_bind.1 hx
  obtain ⟨s4, r4, h4, hx⟩ := mem_bind.1 hx
  rw [mem_pure] at hx
  subst hx
  obtain ⟨u, e2, hu⟩ := Snd.opt balR_rel (sepBy_bal rfl rfl hE.name.bal) _ _ h2
  obtain ⟨v, e3, hv⟩ := Snd.opt balR_rel (Snd.bind balR_rel (tok_bal (t := .kw .RETURN) rfl rfl) fun _ => hE.name.bal) _ _ h3
  obtain ⟨y, e1, hy, -⟩ := mem_tok.1 h1
  obtain ⟨z, e4, hz, -⟩ := mem_tok.1 h4
  simp only at e1 e2 e3 e4 ⊢
  subst e4; subst e3; subst e2; subst e1
  exact ⟨y :: ((u ++ v) ++ z :: []), by simp, .grp (by rw [hy]; rfl) (by rw [hz]; rfl) (hu.append hv) .nil⟩

theorem nameAttributePart_flat (S : VT → Bool) : Snd (FlatR S) (nameAttributePart E) := by
  have hR := flatR_rel S
  exact Snd.bind hR (Snd.opt hR (signature_flat hE S)) fun _ => attr_flat fun _ => Snd.ret hR _

theorem actualDesignator_s1 : Snd (FlatR S1) (actualDesignator E) := by
  have hR := flatR_rel S1
  refine Snd.alts fun p hp => ?_
  simp only [List.mem_cons, List.not_mem_nil, or_false] at hp
  rcases hp with rfl | rfl | rfl
  · exact Snd.bind hR (Snd.opt hR (tok_flat rfl rfl (by decide) rfl)) fun _ => Snd.bind hR (hE.expression 0).ns1 fun _ => Snd.ret hR _
  · exact Snd.bind hR hE.subInd fun _ => Snd.ret hR _
  · exact Snd.bind hR (tok_flat rfl rfl (by decide) rfl) fun _ => Snd.ret hR _

theorem conv_flat {γ : Type} {f : Name → Desig → γ} : Snd (FlatR S2)
    (do let n ← E.name; let _ ← tok .LPAREN; let d ← actualDesignator E; let _ ← tok .RPAREN; return f n d) := by
  have hR := flatR_rel S2
  exact Snd.bind hR hE.name fun _ => grp_flat rfl rfl (actualDesignator_s1 hE).bal fun _ => Snd.ret hR _

theorem actualPart_s1 : Snd (FlatR S1) (actualPart E) := by
  have hR := flatR_rel S1
  exact Snd.or (conv_flat hE).s1 (Snd.bind hR (actualDesignator_s1 hE) fun _ => Snd.ret hR _)

theorem formalPart_flat : Snd (FlatR S2) (formalPart E) := by
  have hR := flatR_rel S2
  exact Snd.bind hR hE.name fun _ =>
    Snd.bind hR (Snd.opt hR (grp_flat rfl rfl hE.name.bal fun _ => Snd.ret hR _)) fun _ => Snd.ret hR _

theorem associationElement_bal : Snd BalR (associationElement E) := by
  have hR := balR_rel
  exact Snd.bind hR (Snd.opt hR (Snd.bind hR (formalPart_flat hE).bal fun _ => Snd.bind hR (tok_bal rfl rfl) fun _ => Snd.ret hR _))
    fun _ => Snd.bind hR (actualPart_s1 hE).bal fun _ => Snd.ret hR _

theorem associationList_flat : Snd (FlatR S2) (associationList E) := by
  have hR := flatR_rel S2
  exact grp_flat rfl rfl (sepBy_bal rfl rfl (associationElement_bal hE)) fun _ => Snd.ret hR _

theorem partialPathname_bal : Snd BalR (partialPathname E) := by
  have hR := balR_rel
  exact Snd.bind hR (Snd.many hR (Snd.bind hR identifier_flat.bal fun _ => Snd.bind hR (Snd.opt hR
    (grp_bal rfl rfl (hE.expression 0).ns1.bal fun _ => Snd.ret hR _)) fun _ => Snd.bind hR (tok_bal rfl rfl) fun _ => Snd.ret hR _))
    fun _ => Snd.bind hR identifier_flat.bal fun _ => Snd.ret hR _

theorem externalPathname_bal : Snd BalR (externalPathname E) := by
  have hR := balR_rel
  have hd : Snd BalR (tok .DOT) := tok_bal rfl rfl
  have hi : Snd BalR identifier := identifier_flat.bal
  refine Snd.alts fun p hp => ?_
  simp only [List.mem_cons, List.not_mem_nil, or_false] at hp
  rcases hp with rfl | rfl | rfl
  · exact Snd.bind hR (tok_bal rfl rfl) fun _ => Snd.bind hR hi fun _ => Snd.bind hR hd fun _ => Snd.bind hR hi fun _ =>
      Snd.bind hR hd fun _ => Snd.bind hR hi fun _ => Snd.bind hR (Snd.many hR (Snd.bind hR hd fun _ => hi)) fun _ => Snd.ret hR _
  · exact Snd.bind hR hd fun _ => partialPathname_bal hE
  · exact Snd.bind hR (Snd.many hR (Snd.bind hR (tok_bal rfl rfl) fun _ => hd)) fun _ => partialPathname_bal hE

theorem externalName_form {ts : List VTok} {x : Name × List VTok} (hx : x ∈ externalName E ts) :
    ∃ o u c, ts = o :: (u ++ c :: x.2) ∧ o.ty = .SHIFT_LEFT ∧ c.ty = .SHIFT_RIGHT ∧ Bal u := by
  obtain ⟨s1, r1, h1, hx⟩ := mem_bind.1 hx
  obtain ⟨s2, r2, h2, hx⟩ := mem_bind.1 hx
  obtain ⟨s3, r3, h3, hx⟩ := mem_bind.1 hx
  obtain ⟨s4, r4, h4, hx⟩ := mem_bind.1 hx
  obtain ⟨s5, r5, h5, hx⟩ := mem_bind.1 hx
  obtain ⟨s6, r6, h6, hx⟩ := mem_bind.1 hx
  rw [mem_pure] at hx
  subst hx
  obtain ⟨y, e1, hy, -⟩ := mem_tok.1 h1
  obtain ⟨u2, e2, hu2⟩ := toks_bal (by decide) _ _ h2
  obtain ⟨u3, e3, hu3⟩ := externalPathname_bal hE _ _ h3
  obtain ⟨u4, e4, hu4⟩ := tok_bal (by rfl) (by rfl) _ _ h4
  obtain ⟨u5, e5, hu5⟩ := hE.subInd.bal _ _ h5
  obtain ⟨z, e6, hz, -⟩ := mem_tok.1 h6
  simp only at e1 e2 e3 e4 e5 e6 ⊢
  subst e6; subst e5; subst e4; subst e3; subst e2; subst e1
  exact ⟨y, u2 ++ (u3 ++ (u4 ++ u5)), z, by simp, hy, hz, hu2.append (hu3.append (hu4.append hu5))⟩

theorem externalName_flat : Snd (FlatR S2) (externalName E) := by
  intro ts x hx
  obtain ⟨o, u, c, h, ho, hc, hu⟩ := externalName_form hE hx
  exact ⟨o :: (u ++ c :: []), by rw [h]; simp, .grp (by rw [ho]; rfl) (by rw [hc]; rfl) hu .nil⟩

theorem namePart_flat (n : Name) : Snd (FlatR S2) (namePart E n) := by
  have hR := flatR_rel S2
  refine Snd.alts fun p hp => ?_
  simp only [List.mem_cons, List.not_mem_nil, or_false] at hp
  rcases hp with rfl | rfl | rfl | rfl
  · exact Snd.bind hR (nameSlicePart_flat hE) fun _ => Snd.ret hR _
  · exact Snd.bind hR (nameAttributePart_flat hE S2) fun _ => Snd.ret hR _
  · exact Snd.bind hR (associationList_flat hE) fun _ => Snd.ret hR _
  · exact Snd.bind hR (tok_flat rfl rfl (by decide) rfl) fun _ => Snd.bind hR suffix_flat fun _ => Snd.ret hR _

theorem name_flat : Snd (FlatR S2) (Vhdl.name E) := by
  have hR := flatR_rel S2
  exact Snd.bind hR (Snd.or (Snd.bind hR nameLit_flat fun _ => Snd.ret hR _) (externalName_flat hE)) fun _ =>
    Snd.loop hR (namePart_flat hE) _

theorem range_s1 : Snd (FlatR S1) (range E) := by
  have hR := flatR_rel S1
  exact Snd.or (Snd.bind hR hE.name.s1 fun _ => Snd.bind hR (nameAttributePart_flat hE S1) fun _ => Snd.ret hR _)
    (Snd.bind hR (explicitRange_s1 hE) fun _ => Snd.ret hR _)

theorem discreteRange_s1 : Snd (FlatR S1) (discreteRange E) := by
  have hR := flatR_rel S1
  exact Snd.or (Snd.bind hR hE.subInd fun _ => Snd.ret hR _) (Snd.bind hR (range_s1 hE) fun _ => Snd.ret hR _)

theorem arrayConstraint_s1 : Snd (FlatR S1) (arrayConstraint E) := by
  have hR := flatR_rel S1
  refine Snd.or ?_ ?_
  · exact grp_flat rfl rfl (sepBy_bal rfl rfl (discreteRange_s1 hE).bal) fun _ => Snd.bind hR (Snd.opt hR hE.elemC) fun _ => Snd.ret hR _
  · exact grp_flat rfl rfl (tok_bal rfl rfl) fun _ => Snd.bind hR (Snd.opt hR hE.elemC) fun _ => Snd.ret hR _

theorem recordConstraint_s1 : Snd (FlatR S1) (recordConstraint E) := by
  have hR := flatR_rel S1
  exact grp_flat rfl rfl (sepBy_bal rfl rfl (Snd.bind balR_rel identifier_flat.bal fun _ => hE.elemC.bal)) fun _ => Snd.ret hR _

theorem elementConstraint_s1 : Snd (FlatR S1) (elementConstraint E) := by
  have hR := flatR_rel S1
  exact Snd.or (Snd.bind hR (arrayConstraint_s1 hE) fun _ => Snd.ret hR _)
    (Snd.bind hR (recordConstraint_s1 hE) fun _ => Snd.ret hR _)

theorem constraint_s1 : Snd (FlatR S1) (constraint E) := by
  have hR := flatR_rel S1
  exact Snd.or (Snd.bind hR (tok_flat rfl rfl (by decide) rfl) fun _ => Snd.bind hR (range_s1 hE) fun _ => Snd.ret hR _)
    (Snd.bind hR (elementConstraint_s1 hE) fun _ => Snd.ret hR _)

theorem elementResolution_s1 : Snd (FlatR S1) (elementResolution E) := by
  have hR := flatR_rel S1
  exact grp_flat rfl rfl (Snd.or hE.resol.bal (Snd.bind balR_rel (sepBy_bal rfl rfl
    (Snd.bind balR_rel identifier_flat.bal fun _ => hE.resol.bal)) fun _ => Snd.ret balR_rel _)) fun _ => Snd.ret hR _

theorem resolution_s1 : Snd (FlatR S1) (resolution E) := by
  have hR := flatR_rel S1
  exact Snd.or (Snd.bind hR hE.name.s1 fun _ => Snd.ret hR _) (Snd.bind hR (elementResolution_s1 hE) fun _ => Snd.ret hR _)

theorem subtypeIndication_s1 : Snd (FlatR S1) (subtypeIndication E) := by
  have hR := flatR_rel S1
  exact Snd.bind hR (Snd.opt hR (resolution_s1 hE)) fun _ => Snd.bind hR hE.name.s1 fun _ =>
    Snd.bind hR (Snd.opt hR (constraint_s1 hE)) fun _ => Snd.ret hR _

theorem choice_s1 : Snd (FlatR S1) (choice E) := by
  have hR := flatR_rel S1
  refine Snd.alts fun p hp => ?_
  simp only [List.mem_cons, List.not_mem_nil, or_false] at hp
  rcases hp with rfl | rfl | rfl
  · exact Snd.bind hR (discreteRange_s1 hE) fun _ => Snd.ret hR _
  · exact Snd.bind hR (hE.simple 0).ns1 fun _ => Snd.ret hR _
  · exact Snd.bind hR (tok_flat rfl rfl (by decide) rfl) fun _ => Snd.ret hR _

theorem choices_s1 : Snd (FlatR S1) (sepBy .BAR (choice E)) :=
  Snd.sepBy (flatR_rel S1) (tok_flat rfl rfl (by decide) rfl) (choice_s1 hE)

theorem elementAssociation_bal : Snd BalR (elementAssociation E) := by
  have hR := balR_rel
  exact Snd.bind hR (Snd.opt hR (Snd.bind hR (choices_s1 hE).bal fun _ => Snd.bind hR (tok_bal rfl rfl) fun _ => Snd.ret hR _))
    fun _ => Snd.bind hR (hE.expression 0).ns1.bal fun _ => Snd.ret hR _

theorem aggregate_flat : Snd (FlatR S2) (aggregate E) := by
  have hR := flatR_rel S2
  exact grp_flat rfl rfl (sepBy_bal rfl rfl (elementAssociation_bal hE)) fun _ => Snd.ret hR _

theorem aggregate_form {ts : List VTok} {x : List Elem × List VTok} (hx : x ∈ aggregate E ts) :
    ∃ o u c, ts = o :: (u ++ c :: x.2) ∧ o.ty = .LPAREN ∧ c.ty = .RPAREN ∧ Bal u := by
  obtain ⟨s1, r1, h1, hx⟩ := mem_bind.1 hx
  obtain ⟨s2, r2, h2, hx⟩ := mem_bind.1 hx
  obtain ⟨s3, r3, h3, hx⟩ := mem_bind.1 hx
  rw [mem_pure] at hx
  subst hx
  obtain ⟨y, e1, hy, -⟩ := mem_tok.1 h1
  obtain ⟨u2, e2, hu2⟩ := sepBy_bal (by rfl) (by rfl) (elementAssociation_bal hE) _ _ h2
  obtain ⟨z, e3, hz, -⟩ := mem_tok.1 h3
  simp only at e1 e2 e3 ⊢
  subst e3; subst e2; subst e1
  exact ⟨y, u2, z, by simp, hy, hz, hu2⟩

theorem qualified_flat : Snd (FlatR S2) (qualified E) := by
  intro ts x hx
  obtain ⟨s1, r1, h1, hx⟩ := mem_bind.1 hx
  obtain ⟨s2, r2, h2, hx⟩ := mem_bind.1 hx
  obtain ⟨s3, r3, h3, hx⟩ := mem_bind.1 hx
  rw [mem_pure] at hx
  subst hx
  obtain ⟨u, e1, hu⟩ := hE.name _ _ h1
  obtain ⟨y, e2, hy, -⟩ := mem_tok.1 h2
  obtain ⟨o, v, c, e3, ho, hc, hv⟩ := aggregate_form hE h3
  simp only at e1 e2 e3 ⊢
  subst e3; subst e2; subst e1
  exact ⟨u ++ (y :: o :: (v ++ c :: [])), by simp, hu.append
    (.qual hy (by rw [ho]; rfl) (.grp (by rw [ho]; rfl) (by rw [hc]; rfl) hv .nil))⟩

theorem numericLiteral_flat : Snd (FlatR S2) (numericLiteral E) := by
  have hR := flatR_rel S2
  refine Snd.alts fun p hp => ?_
  simp only [List.mem_cons, List.not_mem_nil, or_false] at hp
  rcases hp with rfl | rfl | rfl
  · exact Snd.bind hR (tok_flat rfl rfl (by decide) rfl) fun _ => Snd.bind hR (Snd.opt hR hE.name) fun _ => Snd.ret hR _
  · exact Snd.bind hR (tok_flat rfl rfl (by decide) rfl) fun _ => Snd.bind hR (Snd.opt hR hE.name) fun _ => Snd.ret hR _
  · exact Snd.bind hR hE.name fun _ => Snd.ret hR _

theorem primary_flatN : Snd FlatN (primary E) := by
  have hR := flatN_rel
  refine Snd.alts fun p hp => ?_
  simp only [List.mem_cons, List.not_mem_nil, or_false] at hp
  rcases hp with rfl | rfl | rfl | rfl | rfl | rfl
  · exact (numericLiteral_flat hE).n
  · exact Snd.bind hR (tok_flat rfl rfl (by decide) rfl).n fun _ => Snd.ret hR _
  · exact Snd.bind hR (tok_flat rfl rfl (by decide) rfl).n fun _ => Snd.ret hR _
  · intro ts x hx
    refine ⟨?_, ?_⟩
    · have hR := flatR_rel S1
      exact Snd.bind hR (tok_flat rfl rfl (by decide) rfl) (fun _ => Snd.or (Snd.bind hR hE.subInd fun _ => Snd.ret hR _)
        (Snd.bind hR (qualified_flat hE).s1 fun _ => Snd.ret hR _)) _ _ hx
    · obtain ⟨s1, r1, h1, -⟩ := mem_bind.1 hx
      obtain ⟨y, e1, hy, -⟩ := mem_tok.1 h1
      exact .inr ⟨y, r1, by rw [e1]; exact (flatR_rel S2).refl _, hy⟩
  · exact Snd.bind hR (aggregate_flat hE).n fun _ => Snd.ret hR _
  · exact Snd.bind hR (qualified_flat hE).n fun _ => Snd.ret hR _

theorem power_flatN : Snd FlatN (power E) := by
  have hR := flatN_rel
  exact Snd.bind hR (primary_flatN hE) fun _ => Snd.bind hR (Snd.opt hR (Snd.bind hR (tok_flat rfl rfl (by decide) rfl).n fun _ =>
    primary_flatN hE)) fun _ => Snd.ret hR _

theorem simpleHead_flatN : Snd FlatN (simpleHead E) := by
  have hR := flatN_rel
  refine Snd.alts fun p hp => ?_
  simp only [List.mem_cons, List.not_mem_nil, or_false] at hp
  rcases hp with rfl | rfl | rfl
  · exact power_flatN hE
  · exact Snd.bind hR (Snd.or (toks_flat (by decide)).n (Snd.bind hR (toks_flat (by decide)).n fun _ => Snd.ret hR _)) fun _ =>
      Snd.bind hR (hE.simple 4) fun _ => Snd.ret hR _
  · exact Snd.bind hR (toks_flat (by decide)).n fun _ => Snd.bind hR (hE.simple 2) fun _ => Snd.ret hR _

theorem simpleStep_flatN (p : Nat) (a : Simple) : Snd FlatN (simpleStep E p a) := by
  have hR := flatN_rel
  exact Snd.or (Snd.prec (Snd.bind hR (toks_flat (by decide)).n fun _ => Snd.bind hR (hE.simple 4) fun _ => Snd.ret hR _) _ _)
    (Snd.prec (Snd.bind hR (toks_flat (by decide)).n fun _ => Snd.bind hR (hE.simple 2) fun _ => Snd.ret hR _) _ _)

theorem simpleExpression_flatN (p : Nat) : Snd FlatN (simpleExpression E p) :=
  Snd.bind flatN_rel (simpleHead_flatN hE) fun a => Snd.loop flatN_rel (simpleStep_flatN hE p) a

theorem expressionStep_flatN (p : Nat) (a : Expression) : Snd FlatN (expressionStep E p a) := by
  have hR := flatN_rel
  refine Snd.alts fun p hp => ?_
  simp only [List.mem_cons, List.not_mem_nil, or_false] at hp
  rcases hp with rfl | rfl | rfl
  · exact Snd.prec (Snd.bind hR (toks_flat (by decide)).n fun _ => Snd.bind hR (hE.expression 4) fun _ => Snd.ret hR _) _ _
  · exact Snd.prec (Snd.bind hR (toks_flat (by decide)).n fun _ => Snd.bind hR (hE.expression 3) fun _ => Snd.ret hR _) _ _
  · exact Snd.prec (Snd.bind hR (toks_flat (by decide)).n fun _ => Snd.bind hR (hE.expression 2) fun _ => Snd.ret hR _) _ _

theorem expressionHead_flatN : Snd FlatN (expressionHead E) := by
  have hR := flatN_rel
  exact Snd.or (Snd.bind hR (tok_flat rfl rfl (by decide) rfl).n fun _ => Snd.bind hR (primary_flatN hE) fun _ => Snd.ret hR _)
    (Snd.bind hR (hE.simple 0) fun _ => Snd.ret hR _)

theorem expressionRule_flatN (p : Nat) : Snd FlatN (expressionRule E p) :=
  Snd.bind flatN_rel (expressionHead_flatN hE) fun a => Snd.loop flatN_rel (expressionStep_flatN hE p) a

theorem Sound.next : Sound E.next where
  name := name_flat hE
  expression := expressionRule_flatN hE
  simple := simpleExpression_flatN hE
  subInd := subtypeIndication_s1 hE
  elemC := elementConstraint_s1 hE
  resol := Snd.bind (flatR_rel S1) (resolution_s1 hE) fun _ => Snd.ret (flatR_rel S1) _

end

theorem sound_env : ∀ n, Sound (env n)
  | 0 => ⟨Snd.fail, fun _ => Snd.fail, fun _ => Snd.fail, Snd.fail, Snd.fail, Snd.fail⟩
  | n + 1 => (sound_env n).next

end Verif.Vhdl
