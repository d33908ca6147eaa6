import Verif.SvItemGood
import Verif.SvModuleLemmas
import Verif.Spec.SvModText
import Verif.Sv.ModGrammar
/-!
# The parse of the ports of SystemVerilog modules
-/
namespace Verif.Spec.SvLrm
open Verif Sv Spec.Sv

/-! ## The fragment for which the AST is claimed -/

def SPortTy.Ok : SPortTy → Prop
  | .plain => True
  | .range a b => a.Ok ∧ b.Ok
  | .vec _ => True
  | .vecRange _ a b => a.Ok ∧ b.Ok
  | .num _ => True
  | .net k r => rangeOk r ∧ (r = none → k = .wire)

def SPort.Ok (p : SPort) : Prop := okIdent p.name ∧ ∀ d t, p.head = some (d, t) → t.Ok

def SPar.Ok (p : SPar) : Prop := (∀ k r, p.ty = .vec k r → rangeOk r) ∧ ∀ a ∈ p.first :: p.more, okIdent a.1 ∧ a.2.Ok

def parsOk : Option (SPar × List SPar) → Prop
  | none => True
  | some (p, l) => ∀ q ∈ p :: l, q.Ok

/-- Parameters in the body only without those in the header. -/
def SModItem.Ok (hdr : Bool) : SModItem → Prop
  | .item g => g.Ok
  | .ports _ t a l => t.Ok ∧ ∀ i ∈ a :: l, okIdent i
  | .par t a l => hdr = false ∧ (∀ k r, t = .vec k r → rangeOk r) ∧ ∀ b ∈ a :: l, okIdent b.1 ∧ b.2.Ok

def SModItem.names : SModItem → List Ident
  | .item g => g.names
  | .ports _ _ _ _ => []
  | .par _ _ _ => []

def SModItem.portNames : SModItem → List Ident
  | .ports _ _ a l => a :: l
  | _ => []

/-- In the old style the header lists different names, and the body declares each of them once and no others. -/
def SPorts.Ok (decls : List Ident) : SPorts → Prop
  | .names a l => (∀ i ∈ a :: l, okIdent i) ∧ ((a :: l).map identName).Nodup ∧ (decls.map identName).Perm ((a :: l).map identName)
  | p => (∀ x ∈ p.all, x.Ok) ∧ decls = []

def SPorts.portNames : SPorts → List Ident
  | .names a l => a :: l
  | p => p.all.map SPort.name

/-- The name of the module is neither escaped nor a keyword; no net, variable or genvar has the name of a port. -/
def SMod.Ok (m : SMod) : Prop := m.name.esc = false ∧ isKw m.name.text = false ∧ parsOk m.params ∧ m.ports.Ok (m.items.flatMap SModItem.portNames) ∧ (∀ g ∈ m.items, g.Ok m.params.isSome) ∧
  apart (m.items.flatMap SModItem.names) m.ports.portNames

end Verif.Spec.SvLrm

namespace Verif.Sv
open P Verif.Spec.SvLrm Verif.Spec.Sv

variable {V S W : Type} {A : Alg V} {Bs : SAlg V S} {N : MAlg V S W} {B : Rules} {C : StmRules} {G : ItemRules} {D : ModRules}

/-! ## Types -/

variable (A Bs) in
/-- A tree of the type of a port means the same as the text. -/
def MPt (o : Option NetOrVar) (ty : SPortTy) : Prop :=
  match o with
  | none => ty = .plain
  | some t => evNetOrVar A Bs t = (ty.eval A Bs, false) ∧ isVar t = false ∧ (ty.Ok → okNetOrVar t true) ∧ ty.open_ A Bs = ty.eval A Bs

theorem dir_no {x : STok} (hx : ∀ d, x.ty ≠ dirTy d) (R : List STok) : portDirection (x :: R) = [] := by
  refine toks_neg (fun a ha => ?_) R
  simp only [List.mem_cons, Prod.mk.injEq, List.not_mem_nil, or_false] at ha
  rcases ha with ⟨h, -⟩ | ⟨h, -⟩ | ⟨h, -⟩ | ⟨h, -⟩
  · exact hx .input h
  · exact hx .output h
  · exact hx .inout h
  · exact hx .ref h

theorem dir_first {d : PortDir} {x : STok} (h : x.ty = dirTy d) (R : List STok) : First None' portDirection (x :: R) d R := by
  refine First.of_eq ?_
  rw [portDirection, P.toks, alts_apply]
  cases d <;> simp [bind_apply, tok_cons, h, dirTy, pure_apply]

/-- What follows the name of a port. -/
def PEnd (R : List STok) : Prop := ∃ y s, R = y :: s ∧ (y.ty = .COMMA ∨ y.ty = .RPAREN ∨ y.ty = .SEMI)

theorem CommaPar.pend {R : List STok} (h : CommaPar R) : PEnd R := by
  obtain ⟨y, s, e, h⟩ := h; exact ⟨y, s, e, h.elim .inl fun h => .inr (.inl h)⟩
theorem CommaSemi.pend {R : List STok} (h : CommaSemi R) : PEnd R := by
  obtain ⟨y, s, e, h⟩ := h; exact ⟨y, s, e, h.elim .inl fun h => .inr (.inr h)⟩

/-- A name which is not followed by another one. -/
theorem port_named {i : Ident} {x : STok} {R : List STok} (hx : Ident.Tok i x) (hR : PEnd R) : NamedOrLabel (x :: R) := by
  refine ⟨i, x, R, rfl, hx, [], [], R, rfl, rfl, .stop ?_, ?_⟩ <;> obtain ⟨y, s, rfl, h | h | h⟩ := hR <;> rintro _ _ ⟨⟩ <;> rw [h] <;> decide

theorem PEnd.bd {R : List STok} (hR : PEnd R) : Bd R := by
  refine .stop ?_
  obtain ⟨y, s, rfl, h | h | h⟩ := hR <;> rintro _ _ ⟨⟩ <;> rw [h] <;> decide

/-- Before a name. -/
theorem netOrVar_bd {i : Ident} {x : STok} {R : List STok} (hx : Ident.Tok i x) (hR : PEnd R) (M : Nat) : ∀ z ∈ netOrVar (env B M) (x :: R), Bd z.2 := by
  intro z hz
  have ne : ∀ {t : ST}, isIdTok t = false → tok t (x :: R) = [] := fun h => tok_neg (ident_notPath hx h) R
  obtain ⟨p, hp, hz⟩ := mem_alts.1 hz
  simp only [List.mem_cons, List.not_mem_nil, or_false] at hp
  rcases hp with rfl | rfl | rfl | rfl
  · exact (nil_mem hz (bind_nil (ne rfl))).elim
  · exact (nil_mem hz (bind_nil (ne rfl))).elim
  · exact (nil_mem hz (bind_nil (netType_no (by rw [netNo_id (ident_id hx)])))).elim
  · obtain ⟨t, r, h1, h2⟩ := mem_bind.1 hz
    rw [mem_pure] at h2; cases h2
    rcases mem_or.1 h1 with h1 | h1
    · obtain ⟨t, r, h3, h4⟩ := mem_bind.1 h1
      rw [mem_pure] at h4; cases h4
      exact dataType_bd M (port_named hx hR) _ h3
    · refine (nil_mem h1 (bind_nil ((implicit_no _ (N := isIdTok) rfl rfl rfl).cons (ident_id hx)))).elim

theorem type_first {M : Nat} {ty : SPortTy} {w : List STok} (h : ty.Toks w) (hM : w.length + 2 < M) {i : Ident} {x : STok} {R : List STok} (hx : Ident.Tok i x) (hR : PEnd R) :
    ∃ o, MPt A Bs o ty ∧ First Bd (opt (netOrVar (env B M))) (w ++ x :: R) o (x :: R) := by
  have hsq : tok .LSQUARE_BR (x :: R) = [] := tok_neg (ident_notPath hx rfl) R
  cases ty with
  | plain =>
    rw [SPortTy.Toks, Spec.SvLrm.Empty] at h; subst h
    exact ⟨none, rfl, First.none (netOrVar_bd hx hR M)⟩
  | range a b =>
    rw [SPortTy.Toks] at h
    obtain ⟨t, ht, ft⟩ := packed_first (A := A) (B := B) h (M := M) (by omega) (x :: R)
    obtain ⟨_, w', rfl, ⟨o, rfl, ho⟩, -⟩ := h
    simp only [List.cons_append, List.nil_append] at ft ⊢
    have ne : ∀ {t : ST} {s : List STok}, ST.LSQUARE_BR ≠ t → tok t (o :: s) = [] := fun h => tok_neg (by rw [ho]; exact h) _
    refine ⟨some (.type (.impl ⟨.none, [some t]⟩)), ⟨?_, rfl, fun h => ?_, rfl⟩, First.some ?_⟩
    · simp only [evNetOrVar, evTypeI, evImpl, evPacked, ht.ev, evSign, SPortTy.eval]
    · exact ⟨by decide +kernel, ht.ok h, by simp, .inr rfl⟩
    · refine First.orN (bind_nil (ne (by decide))) (First.orN (bind_nil (ne (by decide))) (First.orN (bind_nil (netType_no (by rw [ho]; rfl))) ?_))
      refine First.map (f := NetOrVar.type) (First.orN (bind_nil ((dataType_eNo B M).cons (by rw [ho]; rfl))) (First.map (f := DTypeOrImpl.impl) ?_))
      refine First.orN (bind_nil (toks_neg (by rw [ho]; simp) _)) (First.weak (First.map (f := fun l => (⟨.none, l⟩ : ImplType)) ?_))
      exact First.bindH ft (First.bindH (First.of_eq (many_none (bind_nil hsq))) (First.ret _ _))
  | vec k =>
    rw [SPortTy.Toks] at h
    obtain ⟨z, rfl, hz, hz2⟩ := h
    obtain ⟨M, rfl⟩ : ∃ m, M = m + 1 := ⟨M - 1, by omega⟩
    have ne : ∀ {t : ST} {s : List STok}, k.ty ≠ t → tok t (z :: s) = [] := fun h => tok_neg (by rw [hz]; exact h) _
    refine ⟨some (.type (.type (.prim (.vec k.text .none) []))), ⟨?_, rfl, fun _ => ?_, rfl⟩, First.some ?_⟩
    · simp only [evNetOrVar, evTypeI, if_true, evDType, evSign, SPortTy.eval]
    · simp only [okNetOrVar, okTypeI, okDType]
      exact ⟨trivial, vec_kw k, .inr trivial⟩
    · refine First.orN (bind_nil (ne (by cases k <;> decide))) (First.orN (bind_nil (ne (by cases k <;> decide))) (First.orN (bind_nil (netType_no (by rw [hz]; cases k <;> rfl))) ?_))
      exact First.map (f := NetOrVar.type) (First.orL (First.map (f := DTypeOrImpl.type) (First.weak (vecType_first hz hz2 (.inl (ident_id hx)) (First.of_eq (many_none (bind_nil hsq)))))))
  | vecRange k a b =>
    rw [SPortTy.Toks] at h
    obtain ⟨_, v, rfl, ⟨z, rfl, hz, hz2⟩, h⟩ := h
    simp only [List.length_append, List.length_cons, List.length_nil] at hM
    obtain ⟨M, rfl⟩ : ∃ m, M = m + 1 := ⟨M - 1, by omega⟩
    obtain ⟨t, ht, ft⟩ := vdim_first (A := A) (B := B) h (M := M) (by omega) (x :: R)
    obtain ⟨_, w', rfl, ⟨o, rfl, ho⟩, -⟩ := h
    simp only [List.cons_append, List.nil_append] at ft ⊢
    have ne : ∀ {t : ST} {s : List STok}, k.ty ≠ t → tok t (z :: s) = [] := fun h => tok_neg (by rw [hz]; exact h) _
    refine ⟨some (.type (.type (.prim (.vec k.text .none) [.range t]))), ⟨?_, rfl, fun h => ?_, rfl⟩, First.some ?_⟩
    · simp only [evNetOrVar, evTypeI, if_true, evDType, evVDims, ht.ev, evSign, SPortTy.eval]
    · simp only [okNetOrVar, okTypeI, okDType, okVDims]
      exact ⟨trivial, ⟨vec_kw k, ht.ok h, trivial⟩, .inr trivial⟩
    · refine First.orN (bind_nil (ne (by cases k <;> decide))) (First.orN (bind_nil (ne (by cases k <;> decide))) (First.orN (bind_nil (netType_no (by rw [hz]; cases k <;> rfl))) ?_))
      refine First.map (f := NetOrVar.type) (First.orL (First.map (f := DTypeOrImpl.type) (First.weak (vecType_first hz hz2 (.inr ho) ?_))))
      exact First.many (First.manyCons ft (First.of_eq (manyN_stop (bind_nil hsq) _)))
  | num k =>
    rw [SPortTy.Toks] at h
    obtain ⟨z, rfl, hz, hz2⟩ := h
    obtain ⟨M, rfl⟩ : ∃ m, M = m + 1 := ⟨M - 1, by omega⟩
    have ne : ∀ {t : ST} {s : List STok}, k.ty ≠ t → tok t (z :: s) = [] := fun h => tok_neg (by rw [hz]; exact h) _
    refine ⟨some (.type (.type (numType k))), ⟨?_, rfl, fun _ => ?_, rfl⟩, First.some ?_⟩
    · cases k <;> simp only [evNetOrVar, evTypeI, if_true, numType, numPrim, evDType, evVDims, SPortTy.eval]
    · simp only [okNetOrVar, okTypeI]
      exact ⟨trivial, numType_ok k, .inr trivial⟩
    · refine First.orN (bind_nil (ne (by cases k <;> decide))) (First.orN (bind_nil (ne (by cases k <;> decide))) (First.orN (bind_nil (netType_no (by rw [hz]; cases k <;> rfl))) ?_))
      exact First.map (f := NetOrVar.type) (First.orL (First.map (f := DTypeOrImpl.type) (First.weak (numType_first hz hz2 (ident_id hx)))))
  | net k r =>
    rw [SPortTy.Toks] at h
    obtain ⟨_, v, rfl, ⟨z, rfl, hz, hz2⟩, h⟩ := h
    simp only [List.length_append, List.length_cons, List.length_nil] at hM
    obtain ⟨o, ho, fo⟩ := netRange_first (A := A) (Bs := Bs) (B := B) h (M := M) (by omega) hx hR.bd
      (by obtain ⟨y, s, rfl, h | h | h⟩ := hR <;> rintro _ _ ⟨⟩ <;> rw [h] <;> decide) k
    have ne : ∀ {t : ST} {s : List STok}, k.ty ≠ t → tok t (z :: s) = [] := fun h => tok_neg (by rw [hz]; exact h) _
    simp only [List.cons_append, List.nil_append]
    refine ⟨some (.net k.text o), ⟨?_, rfl, fun h => ho.2 h.1 h.2, rfl⟩, First.some ?_⟩
    · simp only [evNetOrVar, ho.1, SPortTy.eval]
    · exact First.orN (bind_nil (ne (by cases k <;> decide))) (First.orN (bind_nil (ne (by cases k <;> decide))) (First.orL (First.bindH (netType_first hz hz2 _)
        (First.map (f := NetOrVar.net k.text) fo))))

/-! ## Ports -/

variable (A Bs) in
def MPh (h : AnsiHead) : Option (PortDir × SPortTy) → Prop
  | none => h = .none
  | some (d, ty) => ∃ o, h = .dir d o ∧ MPt A Bs o ty

variable (A Bs) in
/-- A tree of a port means the same as the text. -/
def MPo (t : AnsiPort) (p : SPort) : Prop := ∃ h, t = .decl h p.name [] none ∧ MPh A Bs h p.head

/-- The rest of a port. -/
theorem port_tail {M : Nat} {i : Ident} {x : STok} {R : List STok} (hx : Ident.Tok i x) (hR : CommaPar R) (h : Option AnsiHead) :
    First None' (identifier >>= fun i => many (variableDimension (env B M)) >>= fun l => opt (tok .ASSIGN >>= fun _ => (env B M).expression 0) >>= fun v =>
      (pure (AnsiPort.decl (h.getD .none) i l v) : P AnsiPort)) (x :: R) (.decl (h.getD .none) i [] none) R := by
  obtain ⟨y, s, rfl, hy⟩ := hR
  refine First.bindH (identifier_first hx _) (First.bindH (a := []) (First.of_eq (many_none (bind_nil (tok_neg ?_ _)))) (First.bindH (a := none) (First.noneE (bind_nil (tok_neg ?_ _))) (First.ret _ _)))
  · rcases hy with h | h <;> rw [h] <;> decide
  · rcases hy with h | h <;> rw [h] <;> decide

theorem port_first {M : Nat} (p : SPort) (w R : List STok) (h : p.Toks w) (hM : w.length < M) (hR : CommaPar R) :
    ∃ t, MPo A Bs t p ∧ First None' (ansiItem (env B M)) (w ++ R) t R := by
  obtain ⟨hd, i⟩ := p
  cases hd with
  | none =>
    obtain ⟨x, rfl, hx⟩ := h
    refine ⟨_, ⟨.none, rfl, rfl⟩, First.bindH (a := []) (First.of_eq (attributes_ne (ident_notPath hx rfl))) (First.orL ?_)⟩
    refine First.head (D' := Bd) (a := none) (First.none ?_) (port_tail hx hR none) fun _ s hs => bind_nil hs.id
    intro z hz
    obtain ⟨p, hp, hz⟩ := mem_alts.1 hz
    simp only [List.mem_cons, List.not_mem_nil, or_false] at hp
    rcases hp with rfl | rfl | rfl
    · exact (nil_mem hz (bind_nil (dir_no (fun d => ident_notPath hx (by cases d <;> rfl)) R))).elim
    · obtain ⟨t, r, h1, h2⟩ := mem_bind.1 hz
      rw [mem_pure] at h2; cases h2
      exact netOrVar_bd hx hR.pend M _ h1
    · obtain ⟨t, r, h1, h2⟩ := mem_bind.1 hz
      have e : r = R := by
        rcases mem_or.1 h1 with h1 | h1
        · obtain ⟨j, r', h3, h4⟩ := mem_bind.1 h1
          rw [mem_pure] at h4; cases h4
          obtain ⟨y, e⟩ := ident_rest h3
          cases e; rfl
        · exact (nil_mem h1 (bind_nil (tok_neg (ident_notPath hx rfl) R))).elim
      subst e
      have hd : tok .DOT r = [] := by
        obtain ⟨y, s, rfl, hy⟩ := hR
        exact tok_neg (by rcases hy with h | h <;> rw [h] <;> decide) s
      rw [bind_apply, opt_none (bind_nil hd)] at h2
      simp only [List.flatMap_cons, List.flatMap_nil, List.append_nil, mem_pure] at h2
      cases h2
      exact hR.pend.bd
  | some hd =>
    obtain ⟨d, ty⟩ := hd
    obtain ⟨_, _, rfl, ⟨z, rfl, hz⟩, v, _, rfl, hv, ⟨x, rfl, hx⟩⟩ := h
    simp only [List.length_append, List.length_cons, List.length_nil] at hM
    obtain ⟨o, ho, fo⟩ := type_first (A := A) (Bs := Bs) (B := B) hv (M := M) (by omega) hx hR.pend
    simp only [List.append_assoc, List.cons_append, List.nil_append]
    refine ⟨_, ⟨.dir d o, rfl, o, rfl, ho⟩, First.bindH (a := []) (First.of_eq (attributes_ne (by rw [hz]; cases d <;> decide))) (First.orL ?_)⟩
    exact First.head (D' := Bd) (a := some (.dir d o)) (First.some (First.orL (First.bindH (dir_first hz _) (First.map (f := AnsiHead.dir d) fo)))) (port_tail hx hR (some (.dir d o)))
      fun _ s hs => bind_nil hs.id

theorem ports_ev : ∀ {ts : List AnsiPort} {l : List SPort}, All2 (MPo A Bs) ts l → ∀ (dir : Dir) (t : V), evAnsiPorts A Bs dir t false ts = portsEval A Bs dir t l
  | _, _, .nil, _, _ => rfl
  | _, ⟨none, i⟩ :: _, .cons ⟨h, e, hh⟩ h2, dir, t => by
    subst e; cases hh
    rw [evAnsiPorts, portsEval]
    simp only [evVDims, Option.map_none]
    rw [ports_ev h2]
  | _, ⟨some (d, ty), i⟩ :: _, .cons ⟨h, e, hh⟩ h2, dir, t => by
    subst e
    obtain ⟨o, rfl, ho⟩ := hh
    cases o with
    | none =>
      simp only [MPt] at ho
      subst ho
      rw [evAnsiPorts, portsEval]
      simp only [evVDims, Option.map_none, SPortTy.eval]
      rw [ports_ev h2]
    | some t =>
      rw [evAnsiPorts, portsEval]
      simp only [evVDims, Option.map_none, ho.1]
      rw [ports_ev h2]

theorem ports_ok : ∀ {ts : List AnsiPort} {l : List SPort}, All2 (MPo A Bs) ts l → ∀ {P : Bool → Prop}, P true → (∀ p ∈ l, p.Ok) → okAnsiPorts P false ts
  | _, _, .nil, _, _, _ => trivial
  | _, ⟨none, i⟩ :: _, .cons ⟨h, e, hh⟩ h2, P, hP, hok => by
    subst e; cases hh
    obtain ⟨⟨h3, h4⟩, h5⟩ := List.forall_mem_cons.1 hok
    rw [okAnsiPorts]
    exact ⟨h3, trivial, trivial, rfl, hP, ports_ok h2 hP h5⟩
  | _, ⟨some (d, ty), i⟩ :: _, .cons ⟨h, e, hh⟩ h2, P, hP, hok => by
    subst e
    obtain ⟨⟨h3, h4⟩, h5⟩ := List.forall_mem_cons.1 hok
    obtain ⟨o, rfl, ho⟩ := hh
    cases o with
    | none =>
      rw [okAnsiPorts]
      exact ⟨h3, trivial, trivial, ports_ok h2 trivial h5⟩
    | some t =>
      have := ho.2.2.1 (h4 d ty rfl)
      rw [okAnsiPorts]
      refine ⟨h3, trivial, trivial, this, ?_⟩
      rw [ho.2.1]
      exact ports_ok h2 this h5

theorem ports_names {ts : List AnsiPort} {l : List SPort} (h : All2 (MPo A Bs) ts l) : ts.map ansiPortName = l.map SPort.name :=
  all2_map (fun a b ⟨h, e, _⟩ => by subst e; rfl) h

/-! ## Lists of ports -/

variable (A Bs) in
structure MPs (t : Option HdrPorts) (p : SPorts) : Prop where
  ev : ∀ items, evHdrPorts A Bs items (t.getD .none) = p.eval A Bs (evBodyPorts A Bs items)
  ok : ∀ items, p.Ok (bodyPortNames items) → okHdrPorts items (t.getD .none)
  names : hdrPortNames (t.getD .none) = p.portNames

theorem ansi_noPar (M : Nat) : NoAt (fun t => t == .RPAREN) (ansiItem (env B M)) := by
  have e : ∀ {N' : ST → Bool}, N' .RPAREN = true → ∀ t, (t == ST.RPAREN) = true → N' t = true := fun h t ht => by rw [eq_of_beq ht]; exact h
  have hi : NoAt (fun t => t == .RPAREN) identifier := identifier_no.mono (e rfl)
  have hn : NoAt (fun t => t == .RPAREN) netType := .texts (by decide)
  have hnv : NoAt (fun t => t == .RPAREN) (netOrVar (env B M)) := by
    noat_alts
    exact ⟨.bind (.tok rfl), .bind (.tok rfl), .bind hn, .bind (.or (.bind ((dataType_eNo B M).mono (e rfl))) (.bind (implicit_no _ rfl rfl rfl))), by simp⟩
  have hd : NoAt (fun t => t == .RPAREN) portDirection := .toks (by decide)
  have hh : NoAt (fun t => t == .RPAREN) (ansiHead (env B M)) := by
    noat_alts
    exact ⟨.bind hd, .bind hnv, .bind (.or (.bind hi) (.bind (.tok rfl))), by simp⟩
  exact .manyBind (.bind (.tok rfl)) (.or (.optBind hh (.bind hi)) (.optBind hd (.bind (.tok rfl))))

theorem nonansi_no {E : Env} {x : STok} (h1 : isIdTok x.ty = false) (h2 : x.ty ≠ .LBRACE) (h3 : x.ty ≠ .DOT) (R : List STok) : nonansiPort E (x :: R) = [] := by
  have hd : dotIndex E (x :: R) = [] := bind_nil (identifier_no.cons (by rw [h1]; rfl))
  have he : nonansiExpr E (x :: R) = [] := by
    rw [nonansiExpr, or_apply, bind_nil hd, bind_nil (tok_neg h2 R)]; rfl
  rw [nonansiPort, or_apply, bind_nil he, bind_nil (tok_neg h3 R)]; rfl

/-- A name in a list of ports in the old style. -/
theorem plainPort_first {M : Nat} {i : Ident} {x : STok} {R : List STok} (hx : Ident.Tok i x) (hR : CommaPar R) : First None' (nonansiPort (env B M)) (x :: R) (.expr (.one ⟨i, none, []⟩)) R := by
  obtain ⟨y, s, rfl, hy⟩ := hR
  refine First.orL (First.map (f := NonansiPort.expr) (First.orL (First.map (f := NonansiExpr.one) (First.bindH (identifier_first hx _) (First.bindH (a := none) (First.noneE (bind_nil (tok_neg ?_ _)))
    (First.bindH (a := []) (First.of_eq (many_none (bind_nil (tok_neg ?_ _)))) (First.ret _ _)))))))
  · rcases hy with h | h <;> rw [h] <;> decide
  · rcases hy with h | h <;> rw [h] <;> decide

theorem plains_first {M : Nat} {y : STok} (hy : y.ty = .RPAREN) (R : List STok) : ∀ (l : List Ident) (v : List STok), restToks (One .COMMA) (fun i => OneP (Ident.Tok i)) l v →
    CommaPar (v ++ y :: R) ∧ ∀ m, v.length ≤ m → First None' (manyN (tok .COMMA >>= fun _ => opt (nonansiPort (env B M))) m) (v ++ y :: R) (l.map plainPort) (y :: R)
  | [], v, h => by
    rw [restToks, Spec.SvLrm.Empty] at h; subst h
    exact ⟨.par hy _, fun m _ => First.of_eq (manyN_stop (bind_nil (tok_neg (by rw [hy]; decide) _)) m)⟩
  | i :: l, v, h => by
    rw [restToks] at h
    obtain ⟨_, _, rfl, ⟨z, rfl, hz⟩, _, v, rfl, ⟨x, rfl, hx⟩, hv⟩ := h
    obtain ⟨hp, ft⟩ := plains_first (M := M) hy R l v hv
    refine ⟨.comma hz _, fun m hm => ?_⟩
    simp only [List.length_append, List.length_cons, List.length_nil] at hm
    obtain ⟨m, rfl⟩ : ∃ n, m = n + 1 := ⟨m - 1, by omega⟩
    simp only [List.append_assoc, List.cons_append, List.nil_append]
    exact First.manyCons (First.bindH (First.tok hz _) (First.some (plainPort_first hx hp))) (ft m (by omega))

theorem plains_ev (decls : List (Ident × Port V)) (l : List Ident) : (l.map plainPort).map (evNonansiPort A Bs decls) = l.map (portOf A Bs decls) := by
  rw [List.map_map]
  refine List.map_congr_left fun i _ => ?_
  simp only [Function.comp, plainPort, evNonansiPort, portOf]
  rfl

theorem plains_names : ∀ l : List Ident, (l.map plainPort).flatMap nonansiPortName = l
  | [] => rfl
  | i :: l => by rw [List.map_cons, List.flatMap_cons, plains_names l]; rfl

theorem ports_first {M : Nat} {p : SPorts} {w : List STok} (h : p.Toks w) (hM : w.length < M) {z : STok} (hz : z.ty = .SEMI) (R : List STok) :
    ∃ t, MPs A Bs t p ∧ First None' (opt (P.or (listOfPorts (env B M) >>= fun p => pure (HdrPorts.list p))
      (tok .LPAREN >>= fun _ => tok .DOT >>= fun _ => tok .MUL >>= fun _ => tok .RPAREN >>= fun _ => (pure HdrPorts.star : P HdrPorts)))) (w ++ z :: R) t (z :: R) := by
  cases p with
  | none =>
    rw [SPorts.Toks, Spec.SvLrm.Empty] at h; subst h
    refine ⟨none, ⟨fun _ => rfl, fun _ h => h.2, rfl⟩, First.noneE ?_⟩
    have : tok .LPAREN (z :: R) = [] := tok_neg (by rw [hz]; decide) R
    have h2 : listOfPorts (env B M) (z :: R) = [] := bind_nil this
    rw [List.nil_append, or_apply, bind_nil h2, bind_nil this]; rfl
  | empty =>
    rw [SPorts.Toks] at h
    obtain ⟨_, _, rfl, ⟨x, rfl, hx⟩, ⟨y, rfl, hy⟩⟩ := h
    refine ⟨some (.list (.nonansi [])), ⟨fun _ => rfl, fun items h => ⟨by simp, by simp, by rw [h.2]; exact .nil⟩, rfl⟩, First.some (First.orL (First.map (f := HdrPorts.list)
      (First.bindH (First.tok hx _) (First.bindH (a := none) (First.noneE ?_) (First.bindH (First.tok hy _) (First.ret _ _))))))⟩
    refine List.eq_nil_iff_forall_not_mem.2 fun q hq => ?_
    obtain ⟨p, hp, hq⟩ := mem_alts.1 hq
    simp only [List.mem_cons, List.not_mem_nil, or_false] at hp
    rcases hp with rfl | rfl | rfl
    · exact nil_mem hq (bind_nil (nonansi_no (by rw [hy]; rfl) (by rw [hy]; decide) (by rw [hy]; decide) _))
    · exact nil_mem hq (bind_nil (bind_nil (bind_nil (tok_neg (by rw [hy]; decide) _))))
    · exact nil_mem hq (bind_nil (bind_nil ((ansi_noPar M).cons (by rw [hy]; rfl))))
  | list p l =>
    rw [SPorts.Toks] at h
    obtain ⟨hs, _, _, rfl, ⟨x, rfl, hx⟩, _, _, rfl, ⟨u, v, rfl, hu, hv⟩, ⟨y, rfl, hy⟩⟩ := h
    simp only [List.length_append, List.length_cons, List.length_nil] at hM
    obtain ⟨ts, ht, ft⟩ := commas_first (D := None') (p := ansiItem (env B M)) (T := SPort.Toks) (M := MPo A Bs) (N := M) (Rst := CommaPar)
      (fun a u R h hN hR => port_first a u R h hN hR) (fun z R hz => .comma hz R) (fun r h => h.elim) p l u v (y :: z :: R) hu hv
      (by simp only [List.length_append]; omega) (.par hy _) (tok_neg (by rw [hy]; decide) _)
    refine ⟨some (.list (.ansi ts)), ⟨fun _ => ports_ev ht _ _, fun items h => ⟨ports_ok ht trivial h.1, h.2⟩, ports_names ht⟩, ?_⟩
    obtain ⟨d, u', rfl, hd⟩ : ∃ d u', u = d :: u' ∧ ∃ k, d.ty = dirTy k := by
      obtain ⟨hd, i⟩ := p
      cases hd with
      | none => cases hs
      | some hd =>
        obtain ⟨_, _, rfl, ⟨z, rfl, hz⟩, -⟩ := hu
        exact ⟨z, _, rfl, _, hz⟩
    obtain ⟨k, hd⟩ := hd
    simp only [List.append_assoc, List.cons_append, List.nil_append] at ft ⊢
    refine First.some (First.orL (First.map (f := HdrPorts.list) (First.bindH (First.tok hx _) (First.bindH (a := some (.ansi ts)) (r1 := y :: z :: R) (First.some ?_)
      (First.bindH (First.tok hy _) (First.ret _ _))))))
    refine First.orN (bind_nil (nonansi_no (by rw [hd]; cases k <;> rfl) (by rw [hd]; cases k <;> decide) (by rw [hd]; cases k <;> decide) _)) (First.orN (bind_nil (bind_nil (bind_nil (tok_neg (by rw [hd]; cases k <;> decide) _)))) ?_)
    exact First.map (f := PortList.ansi) ft
  | names a l =>
    rw [SPorts.Toks] at h
    obtain ⟨_, _, rfl, ⟨x, rfl, hx⟩, _, _, rfl, ⟨_, v, rfl, ⟨i, rfl, hi⟩, hv⟩, ⟨y, rfl, hy⟩⟩ := h
    obtain ⟨hp, ft⟩ := plains_first (B := B) (M := M) hy (z :: R) l v hv
    simp only [List.append_assoc, List.cons_append, List.nil_append]
    refine ⟨some (.list (.nonansi ((a :: l).map plainPort))), ⟨fun _ => plains_ev _ (a :: l), fun items h => ?_, plains_names (a :: l)⟩,
      First.some (First.orL (First.map (f := HdrPorts.list) (First.bindH (First.tok hx _) (First.bindH (a := some (.nonansi ((a :: l).map plainPort))) (r1 := y :: z :: R)
        (First.some (First.orL (First.bindH (plainPort_first hi hp) (First.map (f := fun l => PortList.nonansi (some (.expr (.one ⟨a, none, []⟩)) :: l)) (First.many (ft _ (by simp)))))))
      (First.bindH (First.tok hy _) (First.ret _ _))))))⟩
    obtain ⟨h1, h2, h3⟩ := h
    refine ⟨fun p hp => ?_, ?_, ?_⟩
    · obtain ⟨i, hi, rfl⟩ := List.mem_map.1 hp
      exact ⟨i, rfl, h1 i hi⟩
    · rw [plains_names]; exact h2
    · rw [plains_names]; exact h3

/-! ## Declarations of ports -/

theorem varIds_first {M : Nat} (a : Ident) (l : List Ident) {w v : List STok} (hw : OneP (Ident.Tok a) w) (hv : restToks (One .COMMA) (fun i => OneP (Ident.Tok i)) l v) (hM : (w ++ v).length < M)
    {c : STok} (hc : c.ty = .SEMI) (R : List STok) : First None' (variableIdentifiers (env B M)) (w ++ (v ++ c :: R)) ((a :: l).map fun i => ⟨i, [], none⟩) (c :: R) ∧
      First None' (tfVariableIdentifiers (env B M)) (w ++ (v ++ c :: R)) ((a :: l).map fun i => ⟨i, [], none⟩) (c :: R) := by
  have e : ∀ {ts : List VarId} {l : List Ident}, All2 (fun t i => t = ⟨i, [], none⟩) ts l → ts = l.map fun i => ⟨i, [], none⟩ := by
    intro ts l h
    have := all2_map (f := id) (g := fun i => (⟨i, [], none⟩ : VarId)) (fun a b h => h) h
    rwa [List.map_id] at this
  have h1 : ∀ (i : Ident) (u R : List STok), OneP (Ident.Tok i) u → u.length < M → CommaSemi R → ∃ t : VarId, t = ⟨i, [], none⟩ ∧
      First None' (identifier >>= fun i => many (variableDimension (env B M)) >>= fun l => (pure (⟨i, l, none⟩ : VarId) : P VarId)) (u ++ R) t R := by
    rintro i _ R ⟨x, rfl, hx⟩ - ⟨y, s, rfl, hy⟩
    refine ⟨_, rfl, First.bindH (identifier_first hx _) (First.bindH (a := []) (First.of_eq (many_none (bind_nil (tok_neg ?_ _)))) (First.ret _ _))⟩
    rcases hy with h | h <;> rw [h] <;> decide
  have h2 : ∀ (i : Ident) (u R : List STok), OneP (Ident.Tok i) u → u.length < M → CommaSemi R → ∃ t : VarId, t = ⟨i, [], none⟩ ∧
      First None' (identifier >>= fun i => many (variableDimension (env B M)) >>= fun l => opt (tok .ASSIGN >>= fun _ => (env B M).expression 0) >>= fun v =>
        (pure (⟨i, l, v⟩ : VarId) : P VarId)) (u ++ R) t R := by
    rintro i _ R ⟨x, rfl, hx⟩ - ⟨y, s, rfl, hy⟩
    refine ⟨_, rfl, First.bindH (identifier_first hx _) (First.bindH (a := []) (First.of_eq (many_none (bind_nil (tok_neg ?_ _)))) (First.bindH (a := none) (First.noneE (bind_nil (tok_neg ?_ _))) (First.ret _ _)))⟩
    · rcases hy with h | h <;> rw [h] <;> decide
    · rcases hy with h | h <;> rw [h] <;> decide
  constructor
  · obtain ⟨ts, ht, ft⟩ := commas_first h1 (fun z R hz => ⟨z, R, rfl, .inl hz⟩) (fun r h => h.elim) a l w v (c :: R) hw hv hM ⟨c, R, rfl, .inr hc⟩ (tok_neg (by rw [hc]; decide) _)
    rw [← e ht]; exact ft
  · obtain ⟨ts, ht, ft⟩ := commas_first h2 (fun z R hz => ⟨z, R, rfl, .inl hz⟩) (fun r h => h.elim) a l w v (c :: R) hw hv hM ⟨c, R, rfl, .inr hc⟩ (tok_neg (by rw [hc]; decide) _)
    rw [← e ht]; exact ft

/-- The tree of a declaration of ports. -/
def ioDecl : SIo → Option NetOrVar → List VarId → NonansiDecl
  | .output => .output
  | .input => .input
  | .inout => fun t => .inout (t.map fun
    | .interconnect t => .interconnect t
    | .net k t => .net k t
    | .type t => .type t
    | .var _ => .interconnect none)

/-- The type of a port without the variables. -/
def netVar : NetPort → NetOrVar
  | .interconnect t => .interconnect t
  | .net k t => .net k t
  | .type t => .type t

theorem netPort_eq {E : Env} {ts : List STok} (h : tok .KW_VAR ts = []) : opt (netOrVar E) ts = (opt (netPortType E) ts).map fun x => (x.1.map netVar, x.2) := by
  simp only [netOrVar, netPortType, opt, or_apply, alts_apply, bind_apply, pure_apply, h, List.map_append, List.map_flatMap, List.flatMap_cons, List.flatMap_nil, List.map_cons, List.map_nil, List.append_nil,
    List.flatMap_append, List.nil_append, List.flatMap_assoc, netVar, Option.map]

theorem netPort_first {E : Env} {ts R : List STok} {o : Option NetOrVar} (hv : tok .KW_VAR ts = []) (h : First Bd (opt (netOrVar E)) ts o R) :
    ∃ t, o = Option.map netVar t ∧ First Bd (opt (netPortType E)) ts t R := by
  obtain ⟨pre, post, e, hp⟩ := h
  rw [netPort_eq hv] at e
  obtain ⟨l1, l2, e1, e2, e3⟩ := List.map_eq_append_iff.1 e
  obtain ⟨x, l3, e4, e5, e6⟩ := List.map_eq_cons_iff.1 e3
  obtain ⟨t, r⟩ := x
  simp only [Prod.mk.injEq] at e5
  obtain ⟨rfl, rfl⟩ := e5
  refine ⟨t, rfl, l1, l3, by rw [e1, e4], fun y hy => ?_⟩
  exact hp _ (by rw [← e2]; exact List.mem_map_of_mem hy)

theorem type_var {t : SPortTy} {w : List STok} (h : t.Toks w) {x : STok} (hx : isIdTok x.ty = true) (R : List STok) : tok .KW_VAR (w ++ x :: R) = [] := by
  cases t with
  | plain => rw [SPortTy.Toks, Spec.SvLrm.Empty] at h; subst h; exact tok_neg (by intro e; rw [e] at hx; cases hx) _
  | range a b => rw [SPortTy.Toks] at h; obtain ⟨_, _, rfl, ⟨z, rfl, hz⟩, -⟩ := h; exact tok_neg (by rw [hz]; decide) _
  | vec k => rw [SPortTy.Toks] at h; obtain ⟨z, rfl, hz, -⟩ := h; exact tok_neg (by rw [hz]; cases k <;> decide) _
  | vecRange k a b => rw [SPortTy.Toks] at h; obtain ⟨_, _, rfl, ⟨z, rfl, hz, -⟩, -⟩ := h; exact tok_neg (by rw [hz]; cases k <;> decide) _
  | num k => rw [SPortTy.Toks] at h; obtain ⟨z, rfl, hz, -⟩ := h; exact tok_neg (by rw [hz]; cases k <;> decide) _
  | net k r => rw [SPortTy.Toks] at h; obtain ⟨_, _, rfl, ⟨z, rfl, hz, -⟩, -⟩ := h; exact tok_neg (by rw [hz]; cases k <;> decide) _

theorem portDecl_first {M : Nat} {o : SIo} {t : SPortTy} {a : Ident} {l : List Ident} {w : List STok} (h : (SModItem.ports o t a l).Toks w) (hM : w.length < M) (R : List STok) :
    ∃ ty c, MPt A Bs ty t ∧ c.ty = .SEMI ∧ First None' (nonansiPortDeclaration (env B M)) (w ++ R) (ioDecl o ty ((a :: l).map fun i => ⟨i, [], none⟩)) (c :: R) := by
  obtain ⟨_, _, rfl, ⟨z, rfl, hz⟩, q, _, rfl, hq, u, _, rfl, hu, v, _, rfl, hv, ⟨c, rfl, hc⟩⟩ := h
  simp only [List.length_append, List.length_cons, List.length_nil] at hM
  obtain ⟨f1, f2⟩ := varIds_first (B := B) (M := M) a l hu hv (by simp only [List.length_append]; omega) hc R
  obtain ⟨x, rfl, hx⟩ := hu
  have hp : PEnd (v ++ c :: R) := by
    cases l with
    | nil => rw [restToks, Spec.SvLrm.Empty] at hv; subst hv; exact ⟨c, R, rfl, .inr (.inr hc)⟩
    | cons i l =>
      rw [restToks] at hv
      obtain ⟨_, _, rfl, ⟨z, rfl, hz⟩, -⟩ := hv
      exact ⟨z, _, rfl, .inl hz⟩
  obtain ⟨ty, mt, fo⟩ := type_first (A := A) (Bs := Bs) (B := B) hq (M := M) (by omega) hx hp
  simp only [List.append_assoc, List.cons_append, List.nil_append] at f1 f2 ⊢
  refine ⟨ty, c, mt, hc, First.bindH (a := []) (First.of_eq (attributes_ne (by rw [hz]; cases o <;> decide))) ?_⟩
  cases o with
  | input =>
    refine First.orN (bind_nil (tok_neg (by rw [hz]; decide) _)) (First.orL (First.bindH (First.tok hz _) (First.head (D' := Bd) fo (First.map (f := NonansiDecl.input ty) f1) ?_)))
    intro c s hs
    have : variableIdentifiers (env B M) s = [] := bind_nil (bind_nil hs.id)
    exact bind_nil this
  | inout =>
    obtain ⟨t, rfl, fn⟩ := netPort_first (type_var hq (ident_id hx) _) fo
    have e : ioDecl .inout (Option.map netVar t) ((a :: l).map fun i => ⟨i, [], none⟩) = .inout t ((a :: l).map fun i => ⟨i, [], none⟩) := by
      cases t with
      | none => rfl
      | some t => cases t <;> rfl
    rw [e]
    refine First.orL (First.bindH (First.tok hz _) (First.head (D' := Bd) fn (First.map (f := NonansiDecl.inout t) f1) ?_))
    intro c s hs
    have : variableIdentifiers (env B M) s = [] := bind_nil (bind_nil hs.id)
    exact bind_nil this
  | output =>
    refine First.orN (bind_nil (tok_neg (by rw [hz]; decide) _)) (First.orN (bind_nil (tok_neg (by rw [hz]; decide) _)) (First.orL (First.bindH (First.tok hz _) (First.head (D' := Bd) fo (First.map (f := NonansiDecl.output ty) f2) ?_))))
    intro c s hs
    have : tfVariableIdentifiers (env B M) s = [] := bind_nil (bind_nil hs.id)
    exact bind_nil this

end Verif.Sv
