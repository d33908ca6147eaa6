import Verif.SvStmScan
import Verif.SvTextGood
import Verif.SvStmLemmas
/-!
# The parse of the parts of SystemVerilog statements
-/
namespace Verif.Sv
open P Verif.Spec.SvLrm Verif.Spec.Sv

variable {V S : Type} {A : Alg V} {B : Rules}

/-! ## Lists -/

/-- Two lists, element by element. -/
inductive All2 {α β : Type} (M : α → β → Prop) : List α → List β → Prop
  | nil : All2 M [] []
  | cons {a : α} {b : β} {l : List α} {m : List β} : M a b → All2 M l m → All2 M (a :: l) (b :: m)

theorem First.manyConsD {α : Type} {p : P α} {a : α} {l : List α} {ts r1 r : List STok} {D : List STok → Prop} {n : Nat} (h1 : First D p ts a r1)
    (h2 : First D (manyN p n) r1 l r) (hD : ∀ s, D s → p s = []) : First D (manyN p (n + 1)) ts (a :: l) r := by
  refine (First.bind h1 h2.map ?_).orL
  intro c s hs x hx
  rw [bind_apply, manyN_stop (hD s hs)] at hx
  simp only [List.flatMap_cons, List.flatMap_nil, List.append_nil, mem_pure] at hx
  subst hx; exact hs

/-- Further parts with separators. -/
theorem rest_first {α τ σ : Type} {D : List STok → Prop} {sep : List STok → Prop} {s : P σ} {p : P τ} {T : α → List STok → Prop} {M : τ → α → Prop} {N : Nat}
    {Rst : List STok → Prop} (hne : ∀ z, sep z → z ≠ []) (hs : ∀ z R, sep z → ∃ c, First None' s (z ++ R) c R)
    (hp : ∀ a u R, T a u → u.length < N → Rst R → ∃ t, M t a ∧ First D p (u ++ R) t R) (hsep : ∀ z R, sep z → Rst (z ++ R))
    (hD : ∀ r, D r → s r = []) : ∀ (l : List α) (v R : List STok), restToks sep T l v → v.length ≤ N → Rst R → s R = [] → ∃ ts, All2 M ts l ∧
    ∀ m, v.length ≤ m → First D (manyN (s >>= fun _ => p) m) (v ++ R) ts R
  | [], v, R, h, hN, hR, hE => by
    rw [restToks, Spec.SvLrm.Empty] at h; subst h
    exact ⟨[], .nil, fun m _ => First.of_eq (manyN_stop (bind_nil hE) m)⟩
  | a :: l, _, R, h, hN, hR, hE => by
    rw [restToks] at h
    obtain ⟨z, _, rfl, hz, u, v, rfl, h1, h2⟩ := h
    have := List.length_pos_of_ne_nil (hne z hz)
    simp only [List.length_append] at hN
    obtain ⟨t, ht, ft⟩ := hp a u (v ++ R) h1 (by omega) (by
      cases l with
      | nil => rw [restToks, Spec.SvLrm.Empty] at h2; subst h2; exact hR
      | cons b l => rw [restToks] at h2; obtain ⟨z, v, rfl, hz, -⟩ := h2; rw [List.append_assoc]; exact hsep z _ hz)
    obtain ⟨ts, hts, fts⟩ := rest_first hne hs hp hsep hD l v R h2 (by omega) hR hE
    refine ⟨t :: ts, .cons ht hts, fun m hm => ?_⟩
    simp only [List.length_append] at hm
    obtain ⟨m, rfl⟩ : ∃ n, m = n + 1 := ⟨m - 1, by omega⟩
    obtain ⟨c, fs⟩ := hs z (u ++ (v ++ R)) hz
    rw [List.append_assoc, List.append_assoc]
    exact First.manyConsD (First.bindH fs ft) (fts m (by omega)) fun r hr => bind_nil (hD r hr)

/-- `p s p s ...` -/
theorem sep_first {α τ σ : Type} {D : List STok → Prop} {sep : List STok → Prop} {s : P σ} {p : P τ} {T : α → List STok → Prop} {M : τ → α → Prop} {N : Nat}
    {Rst : List STok → Prop} (hne : ∀ z, sep z → z ≠ []) (hs : ∀ z R, sep z → ∃ c, First None' s (z ++ R) c R)
    (hp : ∀ a u R, T a u → u.length < N → Rst R → ∃ t, M t a ∧ First D p (u ++ R) t R) (hsep : ∀ z R, sep z → Rst (z ++ R))
    (hD : ∀ r, D r → s r = []) (a : α) (l : List α) (u v R : List STok) (h1 : T a u) (h2 : restToks sep T l v) (hN : (u ++ v).length < N) (hR : Rst R)
    (hE : s R = []) : ∃ ts, All2 M ts (a :: l) ∧
    First D (p >>= fun a => many (s >>= fun _ => p) >>= fun l => pure (a :: l)) (u ++ (v ++ R)) ts R := by
  simp only [List.length_append] at hN
  obtain ⟨t, ht, ft⟩ := hp a u (v ++ R) h1 (by omega) (by
    cases l with
    | nil => rw [restToks, Spec.SvLrm.Empty] at h2; subst h2; exact hR
    | cons b l => rw [restToks] at h2; obtain ⟨z, v, rfl, hz, -⟩ := h2; rw [List.append_assoc]; exact hsep z _ hz)
  obtain ⟨ts, hts, fts⟩ := rest_first hne hs hp hsep hD l v R h2 (by omega) hR hE
  refine ⟨t :: ts, .cons ht hts, First.bind ft (First.map (First.many (fts _ (by simp)))) ?_⟩
  intro c r hr x hx
  rw [bind_apply] at hx
  have : many (s >>= fun _ => p) r = [([], r)] := manyN_stop (bind_nil (hD r hr)) _
  rw [this] at hx
  simp only [List.flatMap_cons, List.flatMap_nil, List.append_nil, mem_pure] at hx
  subst hx; exact hr

theorem comma_ne : ∀ z, One .COMMA z → z ≠ [] := by rintro _ ⟨x, rfl, -⟩; simp
theorem comma_first : ∀ z R, One .COMMA z → ∃ c, First None' (tok .COMMA) (z ++ R) c R := by
  rintro _ R ⟨x, rfl, hx⟩; exact ⟨_, First.tok hx R⟩

/-- `p , p , ...` -/
theorem commas_first {α τ : Type} {D : List STok → Prop} {p : P τ} {T : α → List STok → Prop} {M : τ → α → Prop} {N : Nat}
    {Rst : List STok → Prop} 
    (hp : ∀ a u R, T a u → u.length < N → Rst R → ∃ t, M t a ∧ First D p (u ++ R) t R) (hsep : ∀ z R, z.ty = .COMMA → Rst (z :: R))
    (hD : ∀ r, D r → tok .COMMA r = []) (a : α) (l : List α) (u v R : List STok) (h1 : T a u) (h2 : restToks (One .COMMA) T l v) (hN : (u ++ v).length < N)
    (hR : Rst R) (hE : tok .COMMA R = []) : ∃ ts, All2 M ts (a :: l) ∧ First D (P.sepBy .COMMA p) (u ++ (v ++ R)) ts R :=
  sep_first comma_ne comma_first hp (by rintro _ R ⟨x, rfl, hx⟩; exact hsep x R hx) hD a l u v R h1 h2 hN hR hE

theorem exps_rest : ∀ (l : List SExp) (v : List STok), expsToks l v → restToks (One .COMMA) SExp.Toks l v
  | [], v, h => by rw [expsToks] at h; exact h
  | e :: l, v, h => by
    rw [expsToks] at h
    obtain ⟨z, _, rfl, hz, u, v, rfl, h1, h2⟩ := h
    exact ⟨z, _, rfl, hz, u, v, rfl, h1, exps_rest l v h2⟩

/-! ## Expressions -/

theorem exp_first {e : SExp} {w : List STok} (h : e.Toks w) {M : Nat} (hM : w.length < M) {R : List STok} (hR : Sep R) :
    ∃ t, ME A t e ∧ First None' ((env B M).expression 0) (w ++ R) t R := (good_all w.length).expr' h (Nat.le_refl _) hM hR

/-- `( e )` -/
theorem parExpr_first {e : SExp} {w : List STok} (h : inParens e.Toks w) {M : Nat} (hM : w.length ≤ M) (R : List STok) :
    ∃ t, ME A t e ∧ First None' (parExpr (env B M)) (w ++ R) t R := by
  obtain ⟨_, _, rfl, ⟨x, rfl, hx⟩, u, _, rfl, h, ⟨y, rfl, hy⟩⟩ := h
  simp only [List.length_append, List.length_cons, List.length_nil] at hM
  obtain ⟨t, ht, ft⟩ := exp_first (A := A) (B := B) h (M := M) (by omega) (R := y :: R) (.of hy _ rfl rfl)
  refine ⟨t, ht, ?_⟩
  simp only [List.append_assoc]
  exact First.bindH (First.tok hx _) (First.bindH ft (First.bindH (First.tok hy _) (First.ret _ _)))

/-! ## Targets -/

/-- `[e] [e] ...` -/
def bitsToks : List SExp → List STok → Prop
  | [] => Empty
  | e :: l => Cat (One .LSQUARE_BR) (Cat e.Toks (Cat (One .RSQUARE_BR) (bitsToks l)))

theorem bits_snoc {e : SExp} {z : List STok} (hz : Cat (One .LSQUARE_BR) (Cat e.Toks (One .RSQUARE_BR)) z) : ∀ (l : List SExp) (v : List STok),
    bitsToks l v → bitsToks (l ++ [e]) (v ++ z)
  | [], v, h => by
    rw [bitsToks, Spec.SvLrm.Empty] at h; subst h
    obtain ⟨a, _, rfl, ha, b, c, rfl, hb, hc⟩ := hz
    exact ⟨a, _, rfl, ha, b, c, rfl, hb, c, [], by simp, hc, rfl⟩
  | e' :: l, _, h => by
    rw [bitsToks] at h
    obtain ⟨a, _, rfl, ha, b, _, rfl, hb, c, v, rfl, hc, h⟩ := h
    exact ⟨a, b ++ (c ++ (v ++ z)), by simp, ha, b, c ++ (v ++ z), rfl, hb, c, v ++ z, rfl, hc, bits_snoc hz l v h⟩

variable (A) in
def bitsEval (v : V) (l : List SExp) : V := l.foldl (fun v e => A.index v (e.eval A)) v

theorem elem_norm : ∀ (p : SPrim) (w : List STok), element p = true → p.Toks w → ∃ i l bits u v, w = u ++ v ∧
    Cat (OneP (Ident.Tok i)) (idsToks l) u ∧ bitsToks bits v ∧ bitsEval A (evIds A (A.ident i) l) bits = p.eval A ∧
    (p.Ok → (okIdent i ∧ ∀ j ∈ l, okIdent j) ∧ ∀ e ∈ bits, e.Ok)
  | .name i l, w, _, h => by
    rw [SPrim.Toks] at h
    exact ⟨i, l, [], w, [], by simp, h, rfl, by rw [SPrim.eval]; rfl, fun h => by rw [SPrim.Ok] at h; exact ⟨h, by simp⟩⟩
  | .bit p e, w, hp, h => by
    rw [SPrim.Toks] at h
    obtain ⟨u, z, rfl, h1, h2⟩ := h
    rw [element] at hp
    obtain ⟨i, l, bits, u, v, rfl, hu, hv, he, ho⟩ := elem_norm p u hp h1
    refine ⟨i, l, bits ++ [e], u, v ++ z, by simp, hu, bits_snoc h2 _ _ hv, ?_, ?_⟩
    · rw [SPrim.eval, ← he]; simp [bitsEval]
    · intro h
      rw [SPrim.Ok] at h
      refine ⟨(ho h.1).1, fun e' he' => ?_⟩
      rcases List.mem_append.1 he' with h' | h'
      · exact (ho h.1).2 _ h'
      · rw [List.mem_singleton.1 h']; exact h.2
  | .lit _, _, hc, _ => (by cases hc)
  | .dot _ _, _, hc, _ => (by cases hc)
  | .paren _, _, hc, _ => (by cases hc)
  | .cast _ _, _, hc, _ => (by cases hc)
  | .part _ _ _ _, _, hc, _ => (by cases hc)
  | .concat _ _, _, hc, _ => (by cases hc)
  | .repl _ _ _, _, hc, _ => (by cases hc)
  | .pat _ _, _, hc, _ => (by cases hc)
  | .patKeys _ _, _, hc, _ => (by cases hc)
  | .sys _, _, hc, _ => (by cases hc)
  | .sysCall _ _, _, hc, _ => (by cases hc)
  | .call _ _, _, hc, _ => (by cases hc)

theorem bit_first {e : SExp} {o c : STok} {u : List STok} (ho : o.ty = .LSQUARE_BR) (h : e.Toks u) (hc : c.ty = .RSQUARE_BR) {M : Nat} (hM : u.length < M)
    (R : List STok) : ∃ t, ME A t e ∧ First None' (bitSelect (env B M)) (o :: (u ++ c :: R)) t R := by
  obtain ⟨t, ht, ft⟩ := exp_first (A := A) (B := B) h hM (R := c :: R) (.of hc _ rfl rfl)
  exact ⟨t, ht, First.bindH (First.tok ho _) (First.bindH ft (First.bindH (First.tok hc _) (First.ret _ _)))⟩

theorem bits_first {M : Nat} : ∀ (l : List SExp) (v : List STok), bitsToks l v → v.length ≤ M → ∀ R, bitSelect (env B M) R = [] →
    ∃ ts, (∀ x, evBits A x ts = bitsEval A x l) ∧ ((∀ e ∈ l, e.Ok) → okExps ts) ∧
    ∀ m, v.length ≤ m → First None' (manyN (bitSelect (env B M)) m) (v ++ R) ts R
  | [], v, h, hM, R, hR => by
    rw [bitsToks, Spec.SvLrm.Empty] at h; subst h
    exact ⟨[], fun _ => by rw [evBits]; rfl, fun _ => trivial, fun m _ => First.of_eq (manyN_stop hR m)⟩
  | e :: l, _, h, hM, R, hR => by
    rw [bitsToks] at h
    obtain ⟨_, _, rfl, ⟨o, rfl, ho⟩, u, _, rfl, hu, _, v, rfl, ⟨c, rfl, hc⟩, h⟩ := h
    simp only [List.length_append, List.length_cons, List.length_nil] at hM
    obtain ⟨t, ht, ft⟩ := bit_first (A := A) (B := B) ho hu hc (M := M) (by omega) (v ++ R)
    obtain ⟨ts, h1, h2, fts⟩ := bits_first l v h (by omega) R hR
    refine ⟨t :: ts, ?_, ?_, ?_⟩
    · intro x; rw [evBits, h1, ht.ev]; rfl
    · intro h; exact ⟨ht.ok (h e (by simp)), h2 fun e' he' => h e' (by simp [he'])⟩
    · intro m hm
      simp only [List.length_append, List.length_cons, List.length_nil] at hm
      obtain ⟨m, rfl⟩ : ∃ n, m = n + 1 := ⟨m - 1, by omega⟩
      simp only [List.append_assoc]
      exact First.manyCons ft (fts m (by omega))

/-- Where a target can end. -/
def LvEnd (R : List STok) : Prop := ∀ y s, R = y :: s → y.ty ≠ .HASH ∧ y.ty ≠ .DOUBLE_COLON ∧ y.ty ≠ .LSQUARE_BR ∧ y.ty ≠ .DOT

theorem LvEnd.of {y : STok} {t : ST} (hy : y.ty = t) (s : List STok) (h : t ≠ .HASH ∧ t ≠ .DOUBLE_COLON ∧ t ≠ .LSQUARE_BR ∧ t ≠ .DOT) :
    LvEnd (y :: s) := by
  intro _ _ e; cases e; rw [hy]; exact h

theorem LvEnd.bit {E : Env} {R : List STok} (h : LvEnd R) : bitSelect E R = [] := bind_nil (tok_ne fun y s e => (h y s e).2.2.1)
theorem LvEnd.member {E : Env} {R : List STok} (h : LvEnd R) : member E R = [] := bind_nil (tok_ne fun y s e => (h y s e).2.2.2)

variable (A) in
structure MH (t : HSel) (p : SPrim) : Prop where
  ev : evHSel A t = p.eval A
  ok : p.Ok → okHSel t

theorem bits_end {l : List SExp} {v R : List STok} (h : bitsToks l v) (hR : NameEnd R) : NameEnd (v ++ R) := by
  cases l with
  | nil => rw [bitsToks, Spec.SvLrm.Empty] at h; subst h; exact hR
  | cons e l =>
    rw [bitsToks] at h
    obtain ⟨_, _, rfl, ⟨x, rfl, hx⟩, -⟩ := h
    intro y s e
    cases e
    rw [hx]; exact ⟨by decide, by decide⟩

theorem elem_first {p : SPrim} {w : List STok} (hp : element p = true) (h : p.Toks w) {M : Nat} (hM : w.length ≤ M) {R : List STok} (hR : LvEnd R) :
    ∃ t, MH A t p ∧ First None' (hierSel (env B M)) (w ++ R) t R := by
  obtain ⟨i, l, bits, u, v, rfl, hu, hv, he, ho⟩ := elem_norm (A := A) p w hp h
  simp only [List.length_append] at hM
  obtain ⟨ts, h1, h2, fts⟩ := bits_first (A := A) (B := B) bits v hv (M := M) (by omega) R hR.bit
  refine ⟨.mk (namePath i l) ts [] .none, ⟨?_, ?_⟩, ?_⟩
  · rw [evHSel, evMembers, evSel, namePath_ev, h1, he]
  · intro h; exact ⟨namePath_ok (ho h).1.1 (ho h).1.2, h2 (ho h).2, rfl, trivial⟩
  · rw [List.append_assoc]
    refine First.bindH (path_first hu (bits_end hv fun y s e => ⟨(hR y s e).1, (hR y s e).2.1⟩)) (First.bindH (First.many (fts _ (by simp))) ?_)
    refine First.bindH (First.many (First.of_eq (manyN_stop hR.member _))) (First.bindH (First.noneE (bind_nil (tok_ne fun y s e => (hR y s e).2.2.1))) ?_)
    exact First.ret _ _

theorem part_first {p : SPrim} {k : PartKind} {a b : SExp} {w : List STok} (hp : element p = true) (h : (SPrim.part p k a b).Toks w) {M : Nat}
    (hM : w.length ≤ M) (R : List STok) : ∃ t, MH A t (.part p k a b) ∧ First None' (hierSel (env B M)) (w ++ R) t R := by
  rw [SPrim.Toks] at h
  obtain ⟨w1, _, rfl, h1, _, _, rfl, ⟨x, rfl, hx⟩, u3, _, rfl, h3, u4, _, rfl, h4, u5, _, rfl, h5, ⟨y, rfl, hy⟩⟩ := h
  obtain ⟨i, l, bits, u, v, rfl, hu, hv, he, ho⟩ := elem_norm (A := A) p w1 hp h1
  simp only [List.length_append, List.length_cons, List.length_nil] at hM
  have hbit : bitSelect (env B M) (x :: (u3 ++ (u4 ++ (u5 ++ y :: R)))) = [] := by
    refine List.eq_nil_iff_forall_not_mem.2 fun z hz => ?_
    obtain ⟨_, r, hz1, hz⟩ := mem_bind.1 hz
    obtain ⟨_, hq, -, -⟩ := mem_tok.1 hz1
    cases hq
    obtain ⟨t, r, hz1, hz⟩ := mem_bind.1 hz
    rw [bind_nil (part_noBit h3 h4 M (u5 ++ y :: R) _ hz1)] at hz
    cases hz
  obtain ⟨ts, g1, g2, fts⟩ := bits_first (A := A) (B := B) bits v hv (M := M) (by omega) _ hbit
  obtain ⟨tb, hb, fb⟩ := exp_first (A := A) (B := B) h5 (M := M) (by omega) (R := y :: R) (.of hy _ rfl rfl)
  have key : ∃ s, (∀ x, evSel A x s = A.index x (A.bin (PartKind.sym k) (a.eval A) (b.eval A))) ∧ (a.Ok → b.Ok → okSel s) ∧
      First None' (do
        let _ ← tok .LSQUARE_BR
        let a ← (env B M).expression 0
        let o ← opt operatorPlusMinus
        let _ ← tok .COLON
        let c ← (env B M).expression 0
        let _ ← tok .RSQUARE_BR
        return match o with
          | none => Sel.range a c
          | some .add => .plus a c
          | some _ => .minus a c) (x :: (u3 ++ (u4 ++ (u5 ++ y :: R)))) s R := by
    cases k with
    | range =>
      obtain ⟨z, rfl, hz⟩ := h4
      obtain ⟨ta, ha, fa⟩ := exp_first (A := A) (B := B) h3 (M := M) (by omega) (R := z :: (u5 ++ y :: R)) (.of hz _ rfl rfl)
      refine ⟨.range ta tb, ?_, fun h1 h2 => ⟨ha.ok h1, hb.ok h2⟩, First.bindH (First.tok hx _) (First.bindH fa (First.bindH (First.noneE ?_)
        (First.bindH (First.tok hz _) (First.bindH fb (First.bindH (First.tok hy _) (First.ret _ _))))))⟩
      · intro x; rw [evSel, ha.ev, hb.ev]; rfl
      · exact toks_neg (by rw [hz]; intro a; simp) _
    | up =>
      obtain ⟨_, _, rfl, ⟨q, rfl, hq⟩, ⟨z, rfl, hz⟩⟩ := h4
      have hpc : PlusColon q (z :: (u5 ++ y :: R)) := ⟨.inl hq, z, _, rfl, hz⟩
      obtain ⟨ta, ha, fa⟩ := (good_all (A := A) (B := B) u3.length).exprQ h3 (Nat.le_refl _) (M := M) (by omega) hpc.pends (hpc.ends 0) (Nat.zero_le _)
      refine ⟨.plus ta tb, ?_, fun h1 h2 => ⟨ha.ok h1, hb.ok h2⟩, First.bindH (First.tok hx _) (First.bindH fa (First.bindH (First.some (First.of_eq
        (toks_one (a := .add) ?_ _)))
        (First.bindH (First.tok hz _) (First.bindH fb (First.bindH (First.tok hy _) (First.ret _ _))))))⟩
      · intro x; rw [evSel, ha.ev, hb.ev]; rfl
      · rw [hq]; rfl
    | down =>
      obtain ⟨_, _, rfl, ⟨q, rfl, hq⟩, ⟨z, rfl, hz⟩⟩ := h4
      have hpc : PlusColon q (z :: (u5 ++ y :: R)) := ⟨.inr hq, z, _, rfl, hz⟩
      obtain ⟨ta, ha, fa⟩ := (good_all (A := A) (B := B) u3.length).exprQ h3 (Nat.le_refl _) (M := M) (by omega) hpc.pends (hpc.ends 0) (Nat.zero_le _)
      refine ⟨.minus ta tb, ?_, fun h1 h2 => ⟨ha.ok h1, hb.ok h2⟩, First.bindH (First.tok hx _) (First.bindH fa (First.bindH (First.some (First.of_eq
        (toks_one (a := .sub) ?_ _)))
        (First.bindH (First.tok hz _) (First.bindH fb (First.bindH (First.tok hy _) (First.ret _ _))))))⟩
      · intro x; rw [evSel, ha.ev, hb.ev]; rfl
      · rw [hq]; rfl
  obtain ⟨s, e1, e2, fs⟩ := key
  refine ⟨.mk (namePath i l) ts [] s, ⟨?_, ?_⟩, ?_⟩
  · rw [evHSel, evMembers, e1, namePath_ev, g1, he, SPrim.eval]
  · intro h
    rw [SPrim.Ok] at h
    exact ⟨namePath_ok (ho h.1).1.1 (ho h.1).1.2, g2 (ho h.1).2, rfl, e2 h.2.1 h.2.2⟩
  · simp only [List.append_assoc]
    have hN : NameEnd (x :: (u3 ++ (u4 ++ (u5 ++ y :: R)))) := by intro _ _ e; cases e; rw [hx]; exact ⟨by decide, by decide⟩
    refine First.bindH (path_first hu (bits_end hv hN)) (First.bindH (First.many (fts _ (by simp))) ?_)
    refine First.bindH (First.many (First.of_eq (manyN_stop (bind_nil (tok_neg (by rw [hx]; decide) _)) _))) ?_
    exact First.map (f := fun s => HSel.mk (namePath i l) ts [] (s.getD .none)) (First.some fs)

variable (A) in
structure MLv (t : LVal) (p : SPrim) : Prop where
  ev : evLVal A t = p.eval A
  ok : p.Ok → okLVal t

/-- A name is in front. -/
theorem callable_head : ∀ (p : SPrim) (w : List STok), callable p = true → p.Toks w → ∃ i x s, w = x :: s ∧ Ident.Tok i x
  | .name i l, w, _, h => by
    rw [SPrim.Toks] at h
    obtain ⟨_, v, rfl, ⟨x, rfl, hx⟩, h2⟩ := h
    exact ⟨i, x, v, rfl, hx⟩
  | .bit p e, w, hc, h => by
    rw [SPrim.Toks] at h
    obtain ⟨u, v, rfl, h1, -⟩ := h
    rw [callable] at hc
    obtain ⟨i, x, s, rfl, hx⟩ := callable_head p u hc h1
    exact ⟨i, x, _, rfl, hx⟩
  | .dot p i, w, hc, h => by
    rw [SPrim.Toks] at h
    obtain ⟨u, v, rfl, h1, -⟩ := h
    rw [callable] at hc
    obtain ⟨i, x, s, rfl, hx⟩ := callable_head p u hc h1
    exact ⟨i, x, _, rfl, hx⟩
  | .lit _, _, hc, _ => (by cases hc)
  | .paren _, _, hc, _ => (by cases hc)
  | .cast _ _, _, hc, _ => (by cases hc)
  | .part _ _ _ _, _, hc, _ => (by cases hc)
  | .concat _ _, _, hc, _ => (by cases hc)
  | .repl _ _ _, _, hc, _ => (by cases hc)
  | .pat _ _, _, hc, _ => (by cases hc)
  | .patKeys _ _, _, hc, _ => (by cases hc)
  | .sys _, _, hc, _ => (by cases hc)
  | .sysCall _ _, _, hc, _ => (by cases hc)
  | .call _ _, _, hc, _ => (by cases hc)

theorem elem_head {p : SPrim} {w : List STok} (hp : element p = true) (h : p.Toks w) : ∃ i x s, w = x :: s ∧ Ident.Tok i x :=
  callable_head p w (element_callable p hp) h

theorem target_head {p : SPrim} {w : List STok} (hp : target p = true) (h : p.Toks w) : ∃ x s, w = x :: s ∧ (isIdTok x.ty = true ∨ x.ty = .LBRACE) := by
  rcases target_cases hp with hp | ⟨q, k, a, b, rfl, hq⟩ | ⟨e, l, rfl, -, -, -⟩
  · obtain ⟨i, x, s, rfl, hx⟩ := elem_head hp h
    exact ⟨x, s, rfl, .inl (ident_id hx)⟩
  · rw [SPrim.Toks] at h
    obtain ⟨u, v, rfl, h1, -⟩ := h
    obtain ⟨i, x, s, rfl, hx⟩ := elem_head hq h1
    exact ⟨x, _, rfl, .inl (ident_id hx)⟩
  · rw [SPrim.Toks] at h
    obtain ⟨_, v, rfl, ⟨x, rfl, hx⟩, -⟩ := h
    exact ⟨x, v, rfl, .inr hx⟩

theorem lv_hier {p : SPrim} {w : List STok} {h : HSel} (hh : MH A h p) (hw : ∃ i x s, w = x :: s ∧ Ident.Tok i x) {E : Env} {R : List STok}
    (f : First None' (hierSel E) (w ++ R) h R) : ∃ t, MLv A t p ∧ First None' (lvalue E) (w ++ R) t R := by
  refine ⟨.hier h, ⟨by rw [evLVal]; exact hh.ev, fun hp => hh.ok hp⟩, ?_⟩
  refine First.orN (bind_nil ?_) (First.orL (First.map (f := LVal.hier) f))
  obtain ⟨i, x, s, rfl, hx⟩ := hw
  exact tok_neg (ident_ne hx rfl) _

theorem targetE_prim {e : SExp} (h : targetE e = true) : ∃ p, e = .prim p ∧ target p = true := by
  cases e with
  | prim p => exact ⟨p, rfl, by rw [targetE] at h; exact h⟩
  | _ => simp [targetE] at h

/-- The targets of a concatenation. -/
theorem targets_rest : ∀ (l : List SExp) (v : List STok), expsToks l v → targetEs l = true → ∃ ps : List SPrim, l = ps.map .prim ∧
    restToks (One .COMMA) (fun p w => target p = true ∧ p.Toks w) ps v
  | [], v, h, _ => ⟨[], rfl, by rw [expsToks] at h; exact h⟩
  | e :: l, _, h, ht => by
    rw [targetEs, Bool.and_eq_true] at ht
    obtain ⟨p, rfl, hp⟩ := targetE_prim ht.1
    rw [expsToks] at h
    obtain ⟨z, _, rfl, hz, u, v, rfl, h1, h2⟩ := h
    obtain ⟨ps, rfl, h3⟩ := targets_rest l v h2 ht.2
    rw [SExp.Toks] at h1
    exact ⟨p :: ps, rfl, z, _, rfl, hz, u, v, rfl, ⟨hp, h1⟩, h3⟩

theorem lvs_ev {ts : List LVal} {ps : List SPrim} (h : All2 (MLv A) ts ps) : evLVals A ts = expsEval A (ps.map .prim) := by
  induction h with
  | nil => rw [evLVals, List.map_nil, expsEval]
  | cons h _ ih => rw [evLVals, List.map_cons, expsEval, SExp.eval, h.ev, ih]
theorem lvs_ok {ts : List LVal} {ps : List SPrim} (h : All2 (MLv A) ts ps) (ho : expsOk (ps.map .prim)) : okLVals ts := by
  induction h with
  | nil => trivial
  | cons h _ ih =>
    rw [List.map_cons, expsOk, SExp.Ok] at ho
    exact ⟨h.ok ho.1, ih ho.2⟩

theorem lv_firstN : ∀ (k : Nat) (p : SPrim) (w : List STok), w.length < k → target p = true → p.Toks w → ∀ M, w.length < M → ∀ R, LvEnd R →
    ∃ t, MLv A t p ∧ First None' (env B M).lvalue (w ++ R) t R
  | 0, _, _, hk, _, _, _, _, _, _ => by omega
  | k + 1, p, w, hk, hp, h, M, hM, R, hR => by
    obtain ⟨M, rfl⟩ : ∃ m, M = m + 1 := ⟨M - 1, by omega⟩
    show ∃ t, MLv A t p ∧ First None' (lvalue (env B M)) (w ++ R) t R
    rcases target_cases hp with hp | ⟨q, k, a, b, rfl, hq⟩ | ⟨e, l, rfl, hl, h1, h2⟩
    · obtain ⟨t, ht, ft⟩ := elem_first (A := A) (B := B) hp h (M := M) (by omega) hR
      exact lv_hier ht (elem_head hp h) ft
    · obtain ⟨t, ht, ft⟩ := part_first (A := A) (B := B) hq h (M := M) (by omega) R
      refine lv_hier ht ?_ ft
      rw [SPrim.Toks] at h
      obtain ⟨u, v, rfl, h1, -⟩ := h
      obtain ⟨i, x, s, rfl, hx⟩ := elem_head hq h1
      exact ⟨i, x, _, rfl, hx⟩
    · rw [SPrim.Toks] at h
      obtain ⟨_, _, rfl, ⟨x, rfl, hx⟩, u, _, rfl, hu, v, _, rfl, hv, ⟨y, rfl, hy⟩⟩ := h
      obtain ⟨p, rfl, hp1⟩ := targetE_prim h1
      rw [SExp.Toks] at hu
      obtain ⟨ps, rfl, hv1⟩ := targets_rest l v hv h2
      simp only [List.length_append, List.length_cons, List.length_nil] at hk hM
      obtain ⟨ts, hts, fts⟩ := commas_first (D := None') (M := MLv A) (N := min M k) (Rst := LvEnd) (p := (env B M).lvalue)
        (T := fun p w => target p = true ∧ p.Toks w)
        (fun p u R h hu hR => lv_firstN k p u (by omega) h.1 h.2 M (by omega) R hR) (fun z R hz => .of hz _ (by decide)) (fun r h => h.elim) p ps u v
        (y :: R) ⟨hp1, hu⟩ hv1 (by simp; omega) (.of hy _ (by decide)) (tok_neg (by rw [hy]; decide) _)
      refine ⟨.brace ts, ⟨?_, ?_⟩, ?_⟩
      · have he := lvs_ev hts
        rw [SPrim.eval, ← expsEval, ← List.map_cons, ← he]
        cases hts with
        | cons _ h =>
          cases h with
          | nil => exact (hl rfl).elim
          | cons _ _ => rw [evLVal]; simp
      · intro h
        rw [SPrim.Ok] at h
        refine ⟨lvs_ok hts ?_, ?_⟩
        · rw [List.map_cons, expsOk]; exact ⟨h.1, h.2.1⟩
        · cases hts; simp
      · simp only [List.append_assoc]
        exact First.orL (First.bindH (First.tok hx _) (First.bindH fts (First.bindH (First.tok hy _) (First.ret _ _))))

theorem lv_first {p : SPrim} {w : List STok} (hp : target p = true) (h : p.Toks w) {M : Nat} (hM : w.length < M) {R : List STok} (hR : LvEnd R) :
    ∃ t, MLv A t p ∧ First None' (env B M).lvalue (w ++ R) t R := lv_firstN (w.length + 1) p w (by omega) hp h M hM R hR

end Verif.Sv
