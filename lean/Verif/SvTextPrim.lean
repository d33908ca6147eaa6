import Verif.SvTextArgs
/-!
# The parse of a SystemVerilog expression: primaries
-/
namespace Verif.Sv
open P Verif.Spec.SvLrm Verif.Spec.Sv

section
variable {V : Type} {A : Alg V} {B : Rules}

/-! ## Ranges -/

variable (A) in
structure MR (t : ARange) (v : V) (ok : Prop) : Prop where
  ev : evARange A t = v
  ok : ok → okARange t

section
variable {k : Nat} (g : Good A B k)
include g

theorem Good.one {e : SExp} {w : List STok} (h : e.Toks w) (hk : w.length ≤ k) {M : Nat} (hM : w.length < M) {R : List STok} (hR : SepC R) :
    ∃ t, MR A t (e.eval A) e.Ok ∧ First None' (arrayRange (env B M)) (w ++ R) t R := by
  obtain ⟨t, ht, ft⟩ := g.expr' h hk hM hR.sep
  refine ⟨.one t, ⟨ht.ev, ht.ok⟩, First.bindH ft (First.bindH (First.noneE ?_) (First.ret _ _))⟩
  obtain ⟨y, s, rfl, hy⟩ := hR
  rw [bind_apply, opt_none]
  · simp only [List.flatMap_cons, List.flatMap_nil, List.append_nil]
    refine bind_nil (tok_neg ?_ s)
    rintro h; rw [h] at hy; cases hy
  · have : NoAt isClose operatorPlusMinus := .toks (by decide)
    exact this.cons hy

theorem Good.range {a b : SExp} {pk : PartKind} {w : List STok} (h : Cat a.Toks (Cat (PartKind.Toks pk) b.Toks) w) (hk : w.length ≤ k) {M : Nat}
    (hM : w.length < M) {R : List STok} (hR : SepC R) :
    ∃ t, MR A t (A.bin (PartKind.sym pk) (a.eval A) (b.eval A)) (a.Ok ∧ b.Ok) ∧ First None' (arrayRange (env B M)) (w ++ R) t R := by
  obtain ⟨u, _, rfl, h1, z, v, rfl, h2, h3⟩ := h
  simp only [List.length_append] at hk hM
  obtain ⟨tb, hb, fb⟩ := g.expr' h3 (by omega) (M := M) (by omega) hR.sep
  rw [List.append_assoc, List.append_assoc]
  cases pk with
  | range =>
    obtain ⟨y, rfl, hy⟩ := h2
    obtain ⟨ta, ha, fa⟩ := g.expr' h1 (by omega) (M := M) (by omega) (R := y :: (v ++ R)) (.of hy _ rfl rfl)
    refine ⟨.range ta tb, ⟨?_, ?_⟩, First.bindH fa (First.bindH (First.some (a := (none, tb)) (First.bindH (First.noneE ?_) (First.bindH (First.tok hy _)
      (First.map (f := fun b => ((none : Option BinOp), b)) fb)))) (First.ret _ _))⟩
    · rw [evARange, ha.ev, hb.ev]; rfl
    · intro h; exact ⟨ha.ok h.1, hb.ok h.2⟩
    · exact toks_neg (by rw [hy]; simp) _
  | up =>
    obtain ⟨_, _, rfl, ⟨x, rfl, hx⟩, ⟨y, rfl, hy⟩⟩ := h2
    have hpc : PlusColon x (y :: (v ++ R)) := ⟨.inl hx, y, _, rfl, hy⟩
    obtain ⟨ta, ha, fa⟩ := g.exprQ h1 (by omega) (M := M) (by omega) hpc.pends (hpc.ends 0) (Nat.zero_le _)
    refine ⟨.plus ta tb, ⟨?_, ?_⟩, First.bindH fa (First.bindH (First.some (a := (some .add, tb)) (First.bindH (First.some (First.of_eq (toks_one (a := .add) ?_ _)))
      (First.bindH (First.tok hy _) (First.map (f := fun b => (some BinOp.add, b)) fb)))) (First.ret _ _))⟩
    · rw [evARange, ha.ev, hb.ev]; rfl
    · intro h; exact ⟨ha.ok h.1, hb.ok h.2⟩
    · rw [hx]; rfl
  | down =>
    obtain ⟨_, _, rfl, ⟨x, rfl, hx⟩, ⟨y, rfl, hy⟩⟩ := h2
    have hpc : PlusColon x (y :: (v ++ R)) := ⟨.inr hx, y, _, rfl, hy⟩
    obtain ⟨ta, ha, fa⟩ := g.exprQ h1 (by omega) (M := M) (by omega) hpc.pends (hpc.ends 0) (Nat.zero_le _)
    refine ⟨.minus ta tb, ⟨?_, ?_⟩, First.bindH fa (First.bindH (First.some (a := (some .sub, tb)) (First.bindH (First.some (First.of_eq (toks_one (a := .sub) ?_ _)))
      (First.bindH (First.tok hy _) (First.map (f := fun b => (some BinOp.sub, b)) fb)))) (First.ret _ _))⟩
    · rw [evARange, ha.ev, hb.ev]; rfl
    · intro h; exact ⟨ha.ok h.1, hb.ok h.2⟩
    · rw [hx]; rfl

end

/-- The head of what separates the bounds of a range. -/
theorem part_head {pk : PartKind} {z : List STok} (h : PartKind.Toks pk z) (R : List STok) : ∃ y s, z ++ R = y :: s ∧
    (y.ty = .COLON ∨ (y.ty = .PLUS ∨ y.ty = .MINUS) ∧ ∃ y' s', s = y' :: s' ∧ y'.ty = .COLON) := by
  cases pk with
  | range => obtain ⟨y, rfl, hy⟩ := h; exact ⟨y, R, rfl, .inl hy⟩
  | up => obtain ⟨_, _, rfl, ⟨x, rfl, hx⟩, ⟨y, rfl, hy⟩⟩ := h; exact ⟨x, y :: R, rfl, .inr ⟨.inl hx, y, R, rfl, hy⟩⟩
  | down => obtain ⟨_, _, rfl, ⟨x, rfl, hx⟩, ⟨y, rfl, hy⟩⟩ := h; exact ⟨x, y :: R, rfl, .inr ⟨.inr hx, y, R, rfl, hy⟩⟩

/-- The first bound of a range is not a bit select. -/
theorem part_noBit {a : SExp} {pk : PartKind} {u z : List STok} (h1 : a.Toks u) (h2 : PartKind.Toks pk z) (M : Nat) (R : List STok) :
    ∀ x ∈ (env B M).expression 0 (u ++ (z ++ R)), tok .RSQUARE_BR x.2 = [] := by
  obtain ⟨y, s, e, hy⟩ := part_head h2 R
  rw [e]
  rintro ⟨t, r⟩ hx
  cases r with
  | nil => rfl
  | cons c r =>
    refine tok_neg ?_ r
    intro hc
    exact exp_cut (exp_ex xcfg_comma a u h1) hy (.inl (by rw [hc]; rfl)) hx

/-! ## Data types -/

variable (A) in
structure MV (d : VDim) (v : V) (ok : Prop) : Prop where
  ev : ∀ t, evVDim A t d = A.index t v
  ok : ok → okVDim d

theorem dim_star {e : SExp} {w : List STok} (h : e.Toks w) (R : List STok) : (tok .MUL >>= fun _ => (pure VDim.star : P VDim)) (w ++ R) = [] := by
  obtain ⟨y, s, rfl, h1, -⟩ := exp_begins e w h
  refine bind_nil (tok_neg ?_ _)
  intro h2; rw [h2] at h1; cases h1

section
variable {k : Nat} (g : Good A B k)
include g

theorem Good.dimOne {e : SExp} {w : List STok} {o c : STok} (ho : o.ty = .LSQUARE_BR) (hc : c.ty = .RSQUARE_BR) (h : e.Toks w) (hk : w.length ≤ k)
    {M : Nat} (hM : w.length < M) (R : List STok) :
    ∃ t, MV A t (e.eval A) e.Ok ∧ First None' (variableDimension (env B M)) (o :: (w ++ c :: R)) t R := by
  cases ht : tyE e with
  | true =>
    obtain ⟨p, rfl⟩ : ∃ p, e = .prim p := by cases e <;> first | exact ⟨_, rfl⟩ | cases ht
    rw [SExp.Toks] at h
    obtain ⟨M, rfl⟩ : ∃ m, M = m + 1 := ⟨M - 1, by omega⟩
    obtain ⟨t, hd, ft⟩ := g.dtype p w ht h hk M (by omega) (c :: R) (by intro _ _ e; cases e; rw [hc]; decide)
    have ft : First None' (env B (M + 1)).dataType (w ++ c :: R) t (c :: R) := ft
    refine ⟨.type t, ⟨?_, ?_⟩, ?_⟩
    · intro v; rw [evVDim, hd.ev, SExp.eval]
    · intro h; rw [SExp.Ok] at h; exact hd.ok h
    · refine First.bindH (First.tok ho _) (First.bindH (a := some (.type t)) (r1 := c :: R) (First.some (First.orN ?_ (First.orL
        (First.map (f := VDim.type) ft)))) (First.bindH (First.tok hc _) (First.ret _ _)))
      exact dim_star (e := .prim p) (by rw [SExp.Toks]; exact h) _
  | false =>
    obtain ⟨t, hr, ft⟩ := g.one h hk hM (R := c :: R) (.of hc R rfl)
    refine ⟨.range t, ⟨?_, ?_⟩, ?_⟩
    · intro v; rw [evVDim, hr.ev]
    · intro h; exact hr.ok h
    · refine First.bindH (First.tok ho _) (First.head (D' := fun s => tok .RSQUARE_BR s = []) (a := some (.range t)) (r1 := c :: R) (First.some
        (First.orN (dim_star h _) (First.orR ?_ (First.map (f := VDim.range) ft.weak)))) (First.bindH (First.tok hc _) (First.ret _ _)) ?_)
      · intro x hx
        obtain ⟨t', r, h1, h2⟩ := mem_bind.1 hx
        rw [mem_pure] at h2; subst h2
        cases r with
        | nil => rfl
        | cons z r =>
          refine tok_neg ?_ r
          intro hz
          have := type_cut h (.inl (by rw [hc]; rfl)) (.inl (by rw [hz]; rfl)) h1
          rw [ht] at this; cases this.1
      · intro d s hs; exact bind_nil hs

theorem Good.dimPart {a b : SExp} {pk : PartKind} {w : List STok} {o c : STok} (ho : o.ty = .LSQUARE_BR) (hc : c.ty = .RSQUARE_BR)
    (h : Cat a.Toks (Cat (PartKind.Toks pk) b.Toks) w) (hk : w.length ≤ k) {M : Nat} (hM : w.length < M) (R : List STok) :
    ∃ t, MV A t (A.bin (PartKind.sym pk) (a.eval A) (b.eval A)) (a.Ok ∧ b.Ok) ∧
    First None' (variableDimension (env B M)) (o :: (w ++ c :: R)) t R := by
  obtain ⟨t, hr, ft⟩ := g.range h hk hM (R := c :: R) (.of hc R rfl)
  refine ⟨.range t, ⟨?_, ?_⟩, ?_⟩
  · intro v; rw [evVDim, hr.ev]
  · intro h; exact hr.ok h
  · obtain ⟨u, _, rfl, h1, z, v, rfl, h2, h3⟩ := h
    refine First.bindH (First.tok ho _) (First.head (D' := fun s => tok .RSQUARE_BR s = []) (a := some (.range t)) (r1 := c :: R) (First.some
        (First.orN ?_ (First.orR ?_ (First.map (f := VDim.range) ft.weak)))) (First.bindH (First.tok hc _) (First.ret _ _)) ?_)
    · rw [List.append_assoc]; exact dim_star h1 _
    · intro x hx
      obtain ⟨t', r, h4, h5⟩ := mem_bind.1 hx
      rw [mem_pure] at h5; subst h5
      cases r with
      | nil => rfl
      | cons z' r =>
        refine tok_neg ?_ r
        intro hz
        obtain ⟨y, s, e, hy⟩ := part_head h2 (v ++ c :: R)
        rw [List.append_assoc, List.append_assoc, e] at h4
        have h6 := type_cut h1 (by rcases hy with hy | ⟨hy | hy, -⟩ <;> rw [hy] <;> simp) (.inl (by rw [hz]; rfl)) h4
        have := (List.cons.inj h6.2).1
        subst this
        rcases hy with hy | ⟨hy | hy, -⟩ <;> · rw [hy] at hz; cases hz
    · intro d s hs; exact bind_nil hs

end

variable (A) in
/-- A path and its dimensions. -/
structure MDims (q : Path) (ds : List VDim) (p : SPrim) : Prop where
  ev : evVDims A (evPath A q) ds = p.eval A
  ok : p.Ok → okPath q ∧ okVDims ds
  wire : ∀ e, visitPath q = .ok e → isOpenWire e = false

theorem evVDims_snoc (v : V) (l : List VDim) (d : VDim) : evVDims A v (l ++ [d]) = evVDim A (evVDims A v l) d := by
  induction l generalizing v with
  | nil => rfl
  | cons x l ih => rw [List.cons_append, evVDims, ih, evVDims]

theorem okVDims_snoc {l : List VDim} {d : VDim} (h : okVDims l) (hd : okVDim d) : okVDims (l ++ [d]) := by
  induction l with
  | nil => exact ⟨hd, trivial⟩
  | cons x l ih => exact ⟨h.1, ih h.2⟩

/-- A path with dimensions. -/
def pathDims (E : Env) : P DType := path E >>= fun p => many (variableDimension E) >>= fun l => pure (.path p l)

section
variable {k : Nat} (g : Good A B k)
include g

theorem Good.dims : ∀ (p : SPrim) (w : List STok), tyP p = true → p.Toks w → w.length ≤ k + 1 → ∀ M, w.length ≤ M → ∀ R, NameEnd R →
    ∃ q ds, MDims A q ds p ∧ ∀ ds' R', (∀ m, R.length ≤ m → First None' (manyN (variableDimension (env B M)) m) R ds' R') →
      First None' (pathDims (env B M)) (w ++ R) (.path q (ds ++ ds')) R'
  | .name i l, w, _, h, hk, M, hM, R, hR => by
    rw [SPrim.Toks] at h
    refine ⟨namePath i l, [], ⟨?_, ?_, ?_⟩, ?_⟩
    · rw [evVDims, namePath_ev, SPrim.eval]
    · intro h; rw [SPrim.Ok] at h; exact ⟨namePath_ok h.1 h.2, trivial⟩
    · intro e h; exact namePath_wire h
    · intro ds' R' hf
      exact First.bindH (path_first h hR) (First.map (f := fun l' => DType.path (namePath i l) l') (First.many (hf _ (Nat.le_refl _))))
  | .bit p e, w, ht, h, hk, M, hM, R, hR => by
    rw [SPrim.Toks] at h
    obtain ⟨u, _, rfl, h1, _, _, rfl, ⟨o, rfl, ho⟩, v, _, rfl, h2, ⟨c, rfl, hc⟩⟩ := h
    simp only [List.length_append, List.length_cons, List.length_nil] at hk hM
    obtain ⟨d, hd, fd⟩ := g.dimOne ho hc h2 (by omega) (M := M) (by omega) R
    rw [tyP] at ht
    obtain ⟨q, ds, hq, fq⟩ := Good.dims p u ht h1 (by omega) M (by omega) (o :: (v ++ c :: R)) (by intro _ _ e; cases e; rw [ho]; decide)
    refine ⟨q, ds ++ [d], ⟨?_, ?_, hq.wire⟩, ?_⟩
    · rw [evVDims_snoc, hd.ev, hq.ev, SPrim.eval]
    · intro h; rw [SPrim.Ok] at h; exact ⟨(hq.ok h.1).1, okVDims_snoc (hq.ok h.1).2 (hd.ok h.2)⟩
    · intro ds' R' hf
      have := fq (d :: ds') R' (fun m hm => by
        simp only [List.length_append, List.length_cons] at hm
        obtain ⟨m, rfl⟩ : ∃ n, m = n + 1 := ⟨m - 1, by omega⟩
        exact First.manyCons fd (hf m (by omega)))
      simp only [List.append_assoc, List.cons_append, List.nil_append] at this ⊢
      exact this
  | .part p pk a b, w, ht, h, hk, M, hM, R, hR => by
    rw [SPrim.Toks] at h
    obtain ⟨u, _, rfl, h1, _, _, rfl, ⟨o, rfl, ho⟩, v1, _, rfl, h2, z, _, rfl, h3, v2, _, rfl, h4, ⟨c, rfl, hc⟩⟩ := h
    simp only [List.length_append, List.length_cons, List.length_nil] at hk hM
    obtain ⟨d, hd, fd⟩ := g.dimPart (w := v1 ++ (z ++ v2)) ho hc ⟨v1, _, rfl, h2, z, v2, rfl, h3, h4⟩ (by simp; omega) (M := M) (by simp; omega) R
    rw [tyP] at ht
    obtain ⟨q, ds, hq, fq⟩ := Good.dims p u ht h1 (by omega) M (by omega) (o :: ((v1 ++ (z ++ v2)) ++ c :: R)) (by intro _ _ e; cases e; rw [ho]; decide)
    refine ⟨q, ds ++ [d], ⟨?_, ?_, hq.wire⟩, ?_⟩
    · rw [evVDims_snoc, hd.ev, hq.ev, SPrim.eval]
    · intro h; rw [SPrim.Ok] at h; exact ⟨(hq.ok h.1).1, okVDims_snoc (hq.ok h.1).2 (hd.ok h.2)⟩
    · intro ds' R' hf
      have := fq (d :: ds') R' (fun m hm => by
        simp only [List.length_append, List.length_cons] at hm
        obtain ⟨m, rfl⟩ : ∃ n, m = n + 1 := ⟨m - 1, by omega⟩
        exact First.manyCons fd (hf m (by omega)))
      simp only [List.append_assoc, List.cons_append, List.nil_append] at this ⊢
      exact this
  | .lit _, _, ht, _, _, _, _, _, _ => by cases ht
  | .paren _, _, ht, _, _, _, _, _, _ => by cases ht
  | .cast _ _, _, ht, _, _, _, _, _, _ => by cases ht
  | .dot _ _, _, ht, _, _, _, _, _, _ => by cases ht
  | .concat _ _, _, ht, _, _, _, _, _, _ => by cases ht
  | .repl _ _ _, _, ht, _, _, _, _, _, _ => by cases ht
  | .pat _ _, _, ht, _, _, _, _, _, _ => by cases ht
  | .patKeys _ _, _, ht, _, _, _, _, _, _ => by cases ht
  | .sys _, _, ht, _, _, _, _, _, _ => by cases ht
  | .sysCall _ _, _, ht, _, _, _, _, _, _ => by cases ht
  | .call _ _, _, ht, _, _, _, _, _, _ => by cases ht

omit g in
/-- A text that looks like a data type begins with an identifier. -/
theorem ty_head : ∀ (p : SPrim) (w : List STok), tyP p = true → p.Toks w → ∃ y s, w = y :: s ∧ isIdTok y.ty = true
  | .name i l, w, _, h => by
    rw [SPrim.Toks] at h
    obtain ⟨_, v, rfl, ⟨x, rfl, hx⟩, -⟩ := h
    exact ⟨x, v, rfl, ident_id hx⟩
  | .bit p e, w, ht, h => by
    rw [SPrim.Toks] at h
    obtain ⟨u, v, rfl, h1, -⟩ := h
    rw [tyP] at ht
    obtain ⟨y, s, rfl, hy⟩ := ty_head p u ht h1
    exact ⟨y, s ++ v, rfl, hy⟩
  | .part p pk a b, w, ht, h => by
    rw [SPrim.Toks] at h
    obtain ⟨u, v, rfl, h1, -⟩ := h
    rw [tyP] at ht
    obtain ⟨y, s, rfl, hy⟩ := ty_head p u ht h1
    exact ⟨y, s ++ v, rfl, hy⟩
  | .lit _, _, ht, _ => by cases ht
  | .paren _, _, ht, _ => by cases ht
  | .cast _ _, _, ht, _ => by cases ht
  | .dot _ _, _, ht, _ => by cases ht
  | .concat _ _, _, ht, _ => by cases ht
  | .repl _ _ _, _, ht, _ => by cases ht
  | .pat _ _, _, ht, _ => by cases ht
  | .patKeys _ _, _, ht, _ => by cases ht
  | .sys _, _, ht, _ => by cases ht
  | .sysCall _ _, _, ht, _ => by cases ht
  | .call _ _, _, ht, _ => by cases ht

omit g in
theorem dataType_path {E : Env} {y : STok} {s : List STok} (hy : isIdTok y.ty = true) {t : DType} {R : List STok} (h : First None' (pathDims E) (y :: s) t R) :
    First None' (dataType B E) (y :: s) t R := by
  have hn : ∀ t, isIdTok t = false → y.ty ≠ t := by rintro t ht rfl; rw [hy] at ht; cases ht
  refine First.orN (bind_nil (tok_neg (hn _ rfl) s)) (First.orN (bind_nil (tok_neg (hn _ rfl) s)) (First.orN (bind_nil (tok_neg (hn _ rfl) s))
    (First.orN (bind_nil (tok_neg (hn _ rfl) s)) (First.orL ?_))))
  have h1 : NoAt isIdTok dataTypePrimitive := by
    noat_alts
    exact ⟨.bind (.texts (by decide)), .bind (.texts (by decide)), .bind (.texts (by decide)), by simp⟩
  have h2 : dataTypeBase B E (y :: s) = (path E >>= fun p => pure (DType.path p)) (y :: s) := by
    have e1 : (dataTypePrimitive >>= fun p => (pure (DType.prim p) : P (List VDim → DType))) (y :: s) = [] := bind_nil (h1.cons hy)
    have e2 : (do let _ ← tok .KW_ENUM; B.enumBody; return DType.enum : P (List VDim → DType)) (y :: s) = [] := bind_nil (tok_neg (hn _ rfl) s)
    have e3 : (do let _ ← texts [.KW_STRUCT, .KW_UNION]; B.structBody; return DType.struct : P (List VDim → DType)) (y :: s) = [] := by
      have : NoAt isIdTok (texts [.KW_STRUCT, .KW_UNION]) := .texts (by decide)
      exact bind_nil (this.cons hy)
    unfold dataTypeBase
    rw [alts_apply]
    simp only [List.flatMap_cons, List.flatMap_nil, e1, e2, e3, List.append_nil, List.nil_append]
  obtain ⟨pre, post, e, hp⟩ := h
  refine ⟨pre, post, ?_, hp⟩
  rw [← e, bind_apply, h2, pathDims, bind_apply, bind_apply, List.flatMap_assoc]
  congr 1
  funext x
  simp only [pure_apply, List.flatMap_cons, List.flatMap_nil, List.append_nil]

theorem Good.dtypeS (p : SPrim) (w : List STok) (ht : tyP p = true) (h : p.Toks w) (hk : w.length ≤ k + 1) (M : Nat) (hM : w.length ≤ M) (R : List STok)
    (hR : DEnd R) : ∃ t, MD A t p ∧ First None' (dataType B (env B M)) (w ++ R) t R := by
  obtain ⟨q, ds, hq, fq⟩ := g.dims p w ht h hk M hM R fun y s e => ⟨(hR y s e).1, (hR y s e).2.1⟩
  have f := fq [] R fun m _ => First.of_eq (manyN_stop (bind_nil (tok_ne fun y s e => (hR y s e).2.2)) m)
  rw [List.append_nil] at f
  refine ⟨.path q ds, ⟨?_, ?_⟩, ?_⟩
  · rw [evDType, hq.ev]
  · intro h; exact ⟨(hq.ok h).1, (hq.ok h).2, .inr hq.wire⟩
  · obtain ⟨y, s, rfl, hy⟩ := ty_head p w ht h
    exact dataType_path hy f

end
end

end Verif.Sv
