import Verif.SvModRead
/-!
# The parse of the parameters of SystemVerilog modules
-/
namespace Verif.Sv
open P Verif.Spec.SvLrm Verif.Spec.Sv

variable {V S : Type} {A : Alg V} {Bs : SAlg V S} {B : Rules}

/-- What follows a declaration of parameters: `)` or another one. -/
def ParEnd (R : List STok) : Prop := ∃ y s, R = y :: s ∧ (y.ty = .RPAREN ∨ y.ty = .COMMA ∧ ∃ z r b, s = z :: r ∧ z.ty = parKw b)

theorem ParEnd.par {R : List STok} (h : ParEnd R) : CommaPar R := by
  obtain ⟨y, s, e, h | ⟨h, -⟩⟩ := h
  · exact ⟨y, s, e, .inr h⟩
  · exact ⟨y, s, e, .inl h⟩

theorem CommaPar.colon {R : List STok} (h : CommaPar R) : tok .COLON R = [] := by
  obtain ⟨y, s, rfl, h | h⟩ := h <;> exact tok_neg (by rw [h]; decide) _

theorem ParEnd.stop {R : List STok} (h : ParEnd R) {E : Env} : (tok .COMMA >>= fun _ => paramAssignment E) R = [] := by
  obtain ⟨y, s, rfl, h | ⟨h, z, r, b, rfl, hz⟩⟩ := h
  · exact bind_nil (tok_neg (by rw [h]; decide) _)
  · have : paramAssignment E (z :: r) = [] := bind_nil (identifier_no.cons (by rw [hz]; cases b <;> rfl))
    rw [bind_apply, tok_pos h]
    simp [this]

theorem parRest_first {M : Nat} : ∀ (l : List (Ident × SExp)) (v R : List STok), restToks (One .COMMA) parToks l v → v.length < M → ParEnd R →
    ∃ ts, All2 (MPa A Bs) ts l ∧ CommaPar (v ++ R) ∧ ∀ m, v.length ≤ m → First None' (manyN (tok .COMMA >>= fun _ => paramAssignment (env B M)) m) (v ++ R) ts R
  | [], v, R, h, _, hR => by
    rw [restToks, Spec.SvLrm.Empty] at h; subst h
    exact ⟨[], .nil, hR.par, fun m _ => First.of_eq (manyN_stop hR.stop m)⟩
  | a :: l, v, R, h, hM, hR => by
    rw [restToks] at h
    obtain ⟨_, _, rfl, ⟨z, rfl, hz⟩, u, v, rfl, hu, hv⟩ := h
    simp only [List.length_append, List.length_cons, List.length_nil] at hM
    obtain ⟨ts, ht, hp, ft⟩ := parRest_first (M := M) l v R hv (by omega) hR
    obtain ⟨t, h1, h2⟩ := par_first (A := A) (Bs := Bs) (B := B) (M := M) a u (v ++ R) hu (by omega) hp.sep hp.colon
    refine ⟨t :: ts, .cons h1 ht, ⟨z, _, rfl, .inl hz⟩, fun m hm => ?_⟩
    simp only [List.length_append, List.length_cons, List.length_nil] at hm
    obtain ⟨m, rfl⟩ : ∃ n, m = n + 1 := ⟨m - 1, by omega⟩
    simp only [List.append_assoc, List.cons_append, List.nil_append]
    exact First.manyCons (First.bindH (First.tok hz _) h2) (ft m (by omega))

variable (A Bs) in
/-- A tree of a declaration of parameters means the same as the text. -/
structure MPp (t : PortParam) (p : SPar) : Prop where
  ev : ∀ c l, evPortParams A Bs c (t :: l) = p.eval A Bs ++ evPortParams A Bs p.loc l
  ok : p.Ok → ∀ c l, okPortParams p.loc l → okPortParams c (t :: l)

theorem parDecl_first {M : Nat} (p : SPar) (w R : List STok) (h : p.Toks w) (hM : w.length < M) (hR : ParEnd R) :
    ∃ t, MPp A Bs t p ∧ First None' (parameterPort (env B M)) (w ++ R) t R := by
  obtain ⟨_, _, rfl, ⟨z, rfl, hz⟩, q, _, rfl, hq, u, v, rfl, hu, hv⟩ := h
  simp only [List.length_append, List.length_cons, List.length_nil] at hM
  obtain ⟨ts, ht, hp, ft⟩ := parRest_first (A := A) (Bs := Bs) (B := B) (M := M) p.more v R hv (by omega) hR
  obtain ⟨t, h1, h2⟩ := par_first (A := A) (Bs := Bs) (B := B) (M := M) p.first u (v ++ R) hu (by omega) hp.sep hp.colon
  obtain ⟨_, _, rfl, ⟨x, rfl, hx⟩, _, u, rfl, ⟨y, rfl, hy⟩, hu⟩ := hu
  obtain ⟨o, ⟨ho1, ho2⟩, hk, fo⟩ := parTy_first (A := A) (Bs := Bs) (B := B) hq (M := M) (by omega) (R := u ++ (v ++ R)) hx hy
  simp only [List.append_assoc, List.cons_append, List.nil_append] at h2 ⊢
  have hd : First None' (paramDeclaration (env B M)) (q ++ x :: y :: (u ++ (v ++ R))) (.val o (t :: ts)) R := by
    refine First.orN (bind_nil hk) (First.head (D' := Bd) fo (First.map (f := ParamDecl.val o) (First.bindH h2 (First.map (f := fun l => t :: l) (First.many (ft _ (by simp)))))) ?_)
    intro c s hs
    have : P.sepBy .COMMA (paramAssignment (env B M)) s = [] := bind_nil (bind_nil hs.id)
    exact bind_nil this
  have ev : ∀ c, evGenericDecl A Bs c (.val o (t :: ts)) = (p.first :: p.more).map fun a => Bs.decl ⟨c, false, false⟩ (A.ident a.1)
      (parTyEval A Bs p.ty) (some (a.2.eval A)) := fun c => by
    rw [evGenericDecl, ho1]
    exact all2_map (fun a b h => h.ev c _) (.cons h1 ht)
  have ok : p.Ok → okGenericDecl (.val o (t :: ts)) := fun h =>
    ⟨all2_all (p := okParam) (q := fun a => okIdent a.1 ∧ a.2.Ok) (fun a b h => h.ok) (All2.cons h1 ht) h.2, ho2 h.1⟩
  have ne : ∀ {t : ST} {s : List STok}, parKw p.loc ≠ t → tok t (z :: s) = [] := fun h => tok_neg (by rw [hz]; exact h) _
  obtain ⟨loc, ty, f, m⟩ := p
  cases loc with
  | false =>
    refine ⟨.param (.val o (t :: ts)), ⟨fun c l => ?_, fun h c l hl => ⟨ok h, hl⟩⟩, First.orN (bind_nil (ne (by simp [parKw]))) (First.orL (First.bindH (First.tok hz _) (First.map (f := PortParam.param) hd)))⟩
    rw [evPortParams, ev]; rfl
  | true =>
    refine ⟨.localparam (.val o (t :: ts)), ⟨fun c l => ?_, fun h c l hl => ⟨ok h, hl⟩⟩, First.orN (bind_nil (ne (by simp [parKw]))) (First.orN (bind_nil (ne (by simp [parKw])))
      (First.orL (First.bindH (First.tok hz _) (First.map (f := PortParam.localparam) hd))))⟩
    rw [evPortParams, ev]; rfl

variable (A Bs) in
structure MPps (ts : List PortParam) (l : List SPar) : Prop where
  ev : ∀ c, evPortParams A Bs c ts = l.flatMap (SPar.eval A Bs)
  ok : (∀ p ∈ l, p.Ok) → ∀ c, okPortParams c ts

theorem parDecls_first {M : Nat} {y : STok} (hy : y.ty = .RPAREN) (R : List STok) : ∀ (l : List SPar) (v : List STok), restToks (One .COMMA) SPar.Toks l v → v.length < M →
    ∃ ts, MPps A Bs ts l ∧ ParEnd (v ++ y :: R) ∧ ∀ m, v.length ≤ m → First None' (manyN (tok .COMMA >>= fun _ => parameterPort (env B M)) m) (v ++ y :: R) ts (y :: R)
  | [], v, h, _ => by
    rw [restToks, Spec.SvLrm.Empty] at h; subst h
    exact ⟨[], ⟨fun _ => rfl, fun _ _ => trivial⟩, ⟨y, R, rfl, .inl hy⟩, fun m _ => First.of_eq (manyN_stop (bind_nil (tok_neg (by rw [hy]; decide) _)) m)⟩
  | p :: l, v, h, hM => by
    rw [restToks] at h
    obtain ⟨_, _, rfl, ⟨z, rfl, hz⟩, u, v, rfl, hu, hv⟩ := h
    simp only [List.length_append, List.length_cons, List.length_nil] at hM
    obtain ⟨ts, ht, hp, ft⟩ := parDecls_first (M := M) hy R l v hv (by omega)
    obtain ⟨t, h1, h2⟩ := parDecl_first (A := A) (Bs := Bs) (B := B) (M := M) p u (v ++ y :: R) hu (by omega) hp
    obtain ⟨_, _, rfl, ⟨k, rfl, hk⟩, -⟩ := hu
    refine ⟨t :: ts, ⟨fun c => by rw [h1.ev, ht.ev, List.flatMap_cons], fun h c => h1.ok (h p (.head _)) _ _ (ht.ok (fun q hq => h q (.tail _ hq)) _)⟩, ⟨z, _, rfl, .inr ⟨hz, k, _, p.loc, rfl, hk⟩⟩, fun m hm => ?_⟩
    simp only [List.length_append, List.length_cons, List.length_nil] at hm
    obtain ⟨m, rfl⟩ : ∃ n, m = n + 1 := ⟨m - 1, by omega⟩
    simp only [List.append_assoc, List.cons_append, List.nil_append] at h2 ⊢
    exact First.manyCons (First.bindH (First.tok hz _) h2) (ft m (by omega))

variable (A Bs) in
structure MPq (t : Option ParamPorts) (p : Option (SPar × List SPar)) : Prop where
  ev : evHdrParams A Bs t = parsEval A Bs p
  ok : parsOk p → okHdrParams t
  some : t.isSome = p.isSome

theorem pars_first {M : Nat} {p : Option (SPar × List SPar)} {w : List STok} (h : parsToks p w) (hM : w.length < M) {R : List STok} (hR : ∃ y s, R = y :: s ∧ (y.ty = .LPAREN ∨ y.ty = .SEMI)) :
    ∃ t, MPq A Bs t p ∧ (∀ y s, w ++ R = y :: s → y.ty ≠ .KW_IMPORT) ∧ First None' (opt (parameterPortList (env B M))) (w ++ R) t R := by
  cases p with
  | none =>
    rw [parsToks, Spec.SvLrm.Empty] at h; subst h
    obtain ⟨y, s, rfl, hy⟩ := hR
    refine ⟨none, ⟨rfl, fun _ => trivial, rfl⟩, ?_, First.noneE (bind_nil (tok_neg ?_ _))⟩
    · rintro _ _ ⟨⟩; rcases hy with h | h <;> rw [h] <;> decide
    · rcases hy with h | h <;> rw [h] <;> decide
  | some p =>
    obtain ⟨p, l⟩ := p
    rw [parsToks] at h
    obtain ⟨_, _, rfl, ⟨x, rfl, hx⟩, _, _, rfl, ⟨a, rfl, ha⟩, _, _, rfl, ⟨u, v, rfl, hu, hv⟩, ⟨y, rfl, hy⟩⟩ := h
    simp only [List.length_append, List.length_cons, List.length_nil] at hM
    obtain ⟨ts, ht, hp, ft⟩ := parDecls_first (A := A) (Bs := Bs) (B := B) (M := M) hy R l v hv (by omega)
    obtain ⟨t, h1, h2⟩ := parDecl_first (A := A) (Bs := Bs) (B := B) (M := M) p u (v ++ y :: R) hu (by omega) hp
    obtain ⟨_, _, rfl, ⟨k, rfl, hk⟩, -⟩ := hu
    simp only [List.append_assoc, List.cons_append, List.nil_append] at h2 ⊢
    refine ⟨some (.decls (t :: ts)), ⟨?_, fun h => ?_, rfl⟩, ?_, First.some (First.bindH (First.tok hx _) (First.bindH (First.tok ha _) (First.bindH (a := some (.decls (t :: ts))) (r1 := y :: R)
      (First.some (First.orN ?_ (First.bindH h2 (First.map (f := fun l => ParamPorts.decls (t :: l)) (First.many (ft _ (by simp))))))) (First.bindH (First.tok hy _) (First.ret _ _)))))⟩
    · rw [evHdrParams, h1.ev, ht.ev, parsEval, List.flatMap_cons]
    · exact h1.ok (h p (.head _)) _ _ (ht.ok (fun q hq => h q (.tail _ hq)) _)
    · rintro _ _ ⟨⟩; rw [hx]; decide
    · have : ∀ s, P.sepBy .COMMA (paramAssignment (env B M)) (k :: s) = [] := fun s => bind_nil (bind_nil (identifier_no.cons (by rw [hk]; cases p.loc <;> rfl)))
      exact bind_nil (this _)

end Verif.Sv
