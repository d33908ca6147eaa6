import Verif.VhdlSpecRead
/-!
# VHDL: the parser reads declarations as the LRM says
-/
namespace Verif.Vhdl
open P Verif.Spec Verif.Spec.Lrm

/-! ## First tokens -/

/-- A rule begins with one of these tokens. -/
def Starts {α : Type} (L : List VT) (p : P α) : Prop := ∀ R, (∀ t ∈ L, next R ≠ some t) → p R = []

theorem Starts.no {α : Type} {L L' : List VT} {p : P α} {R : List VTok} (h : Starts L p) (hR : Nx L' R) (hL : ∀ t ∈ L', t ∉ L) : p R = [] :=
  h R fun t ht e => by
    obtain ⟨t', e', ht'⟩ := hR
    rw [e'] at e; cases e
    exact hL _ ht' ht

theorem Starts.tok {β : Type} {t : VT} {f : Str → P β} : Starts [t] (P.tok t >>= f) := fun R h => bind_nil (tok_next (h t (by simp)))
theorem Starts.bind {α β : Type} {L : List VT} {p : P α} {f : α → P β} (h : Starts L p) : Starts L (p >>= f) := fun R hR => bind_nil (h R hR)
theorem Starts.mono {α : Type} {L L' : List VT} {p : P α} (h : Starts L p) (hL : ∀ t ∈ L, t ∈ L') : Starts L' p := fun R hR => h R fun t ht => hR t (hL t ht)
theorem Starts.or {α : Type} {L : List VT} {p q : P α} (hp : Starts L p) (hq : Starts L q) : Starts L (P.or p q) := fun R hR => or_nil (hp R hR) (hq R hR)

/-- What begins a declaration. -/
def itemStart : List VT := [.kw .PROCEDURE, .kw .PURE, .kw .IMPURE, .kw .FUNCTION, .kw .PACKAGE, .kw .TYPE, .kw .SUBTYPE, .kw .CONSTANT, .kw .SHARED,
  .kw .VARIABLE, .kw .FILE, .kw .ALIAS, .kw .ATTRIBUTE, .kw .USE, .kw .GROUP, .kw .SIGNAL, .kw .COMPONENT, .kw .DISCONNECT, .kw .FOR]

theorem st_spec {G : Gr} : Starts specStart (subprogramSpecification G) := fun R h => by
  refine or_nil (bind_nil (tok_next (h _ (by decide)))) ?_
  have : toks [(VT.kw .PURE, false), (VT.kw .IMPURE, true)] R = [] := by
    cases R with
    | nil => rfl
    | cons y s =>
      refine toks_neg (fun a hm => ?_) s
      simp only [List.mem_cons, Prod.mk.injEq, List.not_mem_nil, or_false] at hm
      rcases hm with ⟨e, -⟩ | ⟨e, -⟩
      · exact h (.kw .PURE) (by decide) (by rw [next_cons, e])
      · exact h (.kw .IMPURE) (by decide) (by rw [next_cons, e])
  rw [bind_apply, opt_none this]
  simp only [List.flatMap_cons, List.flatMap_nil, List.append_nil]
  exact bind_nil (tok_next (h _ (by decide)))

theorem st_kind {β : Type} {f : Unit → P β} : Starts [.kw .PROCEDURE, .kw .FUNCTION] (subprogramKind >>= f) := fun R h => by
  refine bind_nil ?_
  cases R with
  | nil => rfl
  | cons y s =>
    refine toks_neg (fun a hm => ?_) s
    simp only [List.mem_cons, Prod.mk.injEq, List.not_mem_nil, or_false] at hm
    rcases hm with ⟨e, -⟩ | ⟨e, -⟩
    · exact h (.kw .PROCEDURE) (by decide) (by rw [next_cons, e])
    · exact h (.kw .FUNCTION) (by decide) (by rw [next_cons, e])

theorem st_var {E : Env} : Starts [.kw .SHARED, .kw .VARIABLE] (variableDeclaration E) := fun R h => by
  exact (flag_skip (t := .kw .SHARED) (h _ (by decide))).trans (bind_nil (tok_next (h _ (by decide))))

section
variable {G : Gr} {I : Items}

theorem st_subDecl : Starts specStart (subprogramDeclaration G) := st_spec.bind
theorem st_subBody {p : P Decl} : Starts specStart (subprogramBody G p) := st_spec.bind
theorem st_subInst {E : Env} : Starts [.kw .PROCEDURE, .kw .FUNCTION] (subprogramInstantiation E) := st_kind
theorem st_type {E : Env} {d b : P Decl} : Starts [.kw .TYPE] (typeDeclaration E d b) := Starts.or Starts.tok Starts.tok
theorem st_config {E : Env} : Starts [.kw .FOR] (configurationSpecification E) := Starts.or Starts.tok Starts.tok

theorem st_pkg {p : P Decl} : Starts [.kw .PACKAGE] (packageDeclaration G p) := Starts.tok
theorem st_pkgInst {E : Env} : Starts [.kw .PACKAGE] (packageInstantiation E) := Starts.tok
theorem st_pkgBody {p : P Decl} : Starts [.kw .PACKAGE] (packageBodyRule p) := Starts.tok
theorem st_subtype {E : Env} : Starts [.kw .SUBTYPE] (subtypeDeclaration E) := Starts.tok
theorem st_const {E : Env} : Starts [.kw .CONSTANT] (constantDeclaration E) := Starts.tok
theorem st_file {E : Env} : Starts [.kw .FILE] (fileDeclaration E) := Starts.tok
theorem st_alias {E : Env} : Starts [.kw .ALIAS] (aliasDeclaration E) := Starts.tok
theorem st_attr {E : Env} : Starts [.kw .ATTRIBUTE] (attributeDeclaration E) := Starts.tok
theorem st_attrSpec {E : Env} : Starts [.kw .ATTRIBUTE] (attributeSpecification E) := Starts.tok
theorem st_use : Starts [.kw .USE] useClause := Starts.tok
theorem st_signal {E : Env} : Starts [.kw .SIGNAL] (signalDeclaration E) := Starts.tok
theorem st_comp : Starts [.kw .COMPONENT] (componentDeclaration G) := Starts.tok
theorem st_disc {E : Env} : Starts [.kw .DISCONNECT] (disconnectionSpecification E) := Starts.tok

theorem st_common : Starts itemStart (commonItem G I) := by
  refine Starts.or (st_subDecl.mono (by decide)) (Starts.or (st_subInst.mono (by decide)) (Starts.or (Starts.mono (Starts.bind Starts.tok) (by decide))
    (Starts.or (Starts.mono (Starts.bind Starts.tok) (by decide)) (Starts.or (st_type.mono (by decide)) (Starts.or (Starts.mono Starts.tok (by decide))
    (Starts.or (Starts.mono Starts.tok (by decide)) (Starts.or (st_var.mono (by decide)) (Starts.or (Starts.mono Starts.tok (by decide))
    (Starts.or (Starts.mono Starts.tok (by decide)) (Starts.or (Starts.mono Starts.tok (by decide)) (Starts.or (Starts.mono Starts.tok (by decide))
    (Starts.or (Starts.mono (Starts.bind Starts.tok) (by decide)) (Starts.or (Starts.mono Starts.tok (by decide)) (Starts.mono Starts.tok (by decide)))))))))))))))

theorem st_process : Starts itemStart (processItem G I) :=
  Starts.or st_common (Starts.or (st_subBody.mono (by decide)) (Starts.mono (Starts.bind Starts.tok) (by decide)))
theorem st_package : Starts itemStart (packageItem G I) :=
  Starts.or st_common (Starts.or (Starts.mono Starts.tok (by decide)) (Starts.or (Starts.mono Starts.tok (by decide)) (Starts.mono Starts.tok (by decide))))

theorem st_items : ∀ n, Starts itemStart (items G n).proc ∧ Starts itemStart (items G n).pkg
  | 0 => ⟨fun _ _ => rfl, fun _ _ => rfl⟩
  | _ + 1 => ⟨st_process, st_package⟩

end

/-! ## Meaning -/

mutual
def LDecl.Ok : LDecl → Prop
  | .subprogram s => LSpec.Ok s
  | .package _ l _ _ => declsOk l
  | .typeIncomplete _ => True
  | .type _ t => LTypeDef.Ok t
  | .subtype _ s => LSub.Ok s
  | .constant v => LVars.Ok v
  | .variable _ v => LVars.Ok v
  | .signal v => LVars.Ok v
  | .alias_ _ t n => (∀ s, t = some s → LSub.Ok s) ∧ LName.Ok n
  | .use l => ∀ p ∈ l, ∀ s ∈ p.rest, okSuffix s
  | .subBody s ds ss _ _ => LSpec.Ok s ∧ declsOk ds ∧ seqsOk ss
  | .packageBody _ l _ _ => declsOk l
  | .component _ _ g p _ => (∀ i ∈ g, LIntf.Ok .generic i) ∧ ∀ i ∈ p, LIntf.Ok .port i
def declsOk : List LDecl → Prop
  | [] => True
  | d :: l => LDecl.Ok d ∧ declsOk l
end

structure MDc {V : Type} (A : Alg V) (t : Decl) (x : LDecl) : Prop where
  ev : ∀ {S : Type} (B : SAlg V S), evDecl A B t = x.eval A B
  ok : LDecl.Ok x → okDecl t

theorem decls_eq {V : Type} {A : Alg V} {ts : List Decl} {l : List LDecl} (h : List.Forall₂ (MDc A) ts l) :
    (∀ {S : Type} (B : SAlg V S), evDecls A B ts = declsEval A B l) ∧ (declsOk l → okDecls ts) := by
  induction h with
  | nil => exact ⟨fun B => by simp only [evDecls, declsEval], fun _ => by simp only [okDecls]⟩
  | cons h _ ih =>
    refine ⟨fun B => by simp only [evDecls, declsEval, h.ev, ih.1], fun o => ?_⟩
    simp only [declsOk] at o
    simp only [okDecls]
    exact ⟨h.ok o.1, ih.2 o.2⟩

/-- The rule for the declarations at a place inside of another declaration. -/
def inner (I : Items) : Place → P Decl
  | .package => I.pkg
  | _ => I.proc

/-- What can stand behind declarations. -/
def afterDecls : List VT := [.kw .BEGIN, .kw .END]

theorem LDecl.nx {p : Place} {x : LDecl} {w R : List VTok} (h : LDecl.Toks p x w) : Nx itemStart (w ++ R) := by
  cases x <;> simp only [LDecl.Toks] at h
  case subprogram s => obtain ⟨u, v, rfl, hu, -⟩ := h; exact Nx.assoc ((LSpec.nx hu).mono (by decide))
  case subBody s ds ss kw e => obtain ⟨-, u, v, rfl, hu, -⟩ := h; exact Nx.assoc ((LSpec.nx hu).mono (by decide))
  case «variable» sh v =>
    obtain ⟨u, _, rfl, hu, x, y, rfl, hx, -⟩ := h
    cases sh with
    | false => cases hu; rw [List.nil_append]; exact Nx.cat hx (by decide)
    | true => exact Nx.cat hu (by decide)
  case signal => obtain ⟨-, u, v, rfl, hu, -⟩ := h; exact Nx.cat hu (by decide)
  case packageBody => obtain ⟨-, u, v, rfl, hu, -⟩ := h; exact Nx.cat hu (by decide)
  case component => obtain ⟨-, u, v, rfl, hu, -⟩ := h; exact Nx.cat hu (by decide)
  all_goals obtain ⟨u, v, rfl, hu, -⟩ := h; exact Nx.cat hu (by decide)

theorem LDecl.ne {p : Place} {x : LDecl} {w : List VTok} (h : LDecl.Toks p x w) : w ≠ [] := by
  rintro rfl
  obtain ⟨t, e, -⟩ := LDecl.nx (R := []) h
  cases e

theorem decls_nx {p : Place} {l : List LDecl} {w R : List VTok} (h : declsToks p l w) {L : List VT} (hR : Nx L R) : Nx (itemStart ++ L) (w ++ R) := by
  cases l with
  | nil => simp only [declsToks] at h; cases h; exact hR.mono fun t ht => List.mem_append_right _ ht
  | cons d l =>
    simp only [declsToks] at h
    obtain ⟨u, v, rfl, hu, -⟩ := h
    exact Nx.assoc ((LDecl.nx hu).mono fun t ht => List.mem_append_left _ ht)

/-- A list of declarations. -/
theorem decls_rd {V : Type} {A : Alg V} {p : Place} {q : P Decl} {n : Nat} (hno : Starts itemStart q)
    (hq : ∀ x u R, LDecl.Toks p x u → u.length ≤ n → ∃ t, MDc A t x ∧ Rd None' q u R t) {l : List LDecl} {w R : List VTok} (h : declsToks p l w)
    (hk : w.length ≤ n) (hR : Nx afterDecls R) : ∃ ts, List.Forall₂ (MDc A) ts l ∧ Rd None' (many q) w R ts :=
  many_rd (T := LDecl.Toks p) (LT := declsToks p) (M := MDc A) (D := None') (C := Nx afterDecls) (Q := fun _ => True) (k := n) (fun _ h => h.elim)
    (fun R hR => hno.no hR (by decide)) (fun _ _ => trivial) (fun w h => by simp only [declsToks] at h; exact h)
    (fun b l w h => by simp only [declsToks] at h; exact h) (fun _ _ _ _ => trivial) (fun b u h => LDecl.ne h)
    (fun b u R hb hk _ => hq b u R hb hk) l w h hk R hR

/-! ## Paths -/

theorem suffix_no {R : List VTok} (h : next R ≠ some .DOT) : (tok .DOT >>= fun _ => suffix) R = [] := bind_nil (tok_next h)

theorem path_rd {p : LPath} {w R : List VTok} (h : p.Toks w) (hR : Nx [.COMMA, .SEMI] R) : Rd None' selectedName w R ⟨p.head, p.rest⟩ := by
  obtain ⟨u, v, rfl, hu, hv⟩ := h
  obtain ⟨ts, m, f⟩ := rep_rd (p := tok .DOT >>= fun _ => suffix) (T := fun s => Cat (One .DOT) (OneP (Suffix.Tok s))) (Mx := Eq) (D := None')
    (C := Nx [.COMMA, .SEMI]) (Q := fun _ => True) (k := v.length) (fun _ h => h.elim) (fun R hR => suffix_no (hR.not (by decide))) (fun _ _ => trivial)
    (fun _ _ _ _ => trivial) (fun b u h => by obtain ⟨_, _, rfl, ⟨y, rfl, -⟩, -⟩ := h; simp)
    (fun b u R hb _ _ => by
      obtain ⟨_, _, rfl, h1, ⟨y, rfl, hy⟩⟩ := hb
      exact ⟨b, rfl, Rd.tok h1 (First.of_eq (suffix_pos hy R))⟩) hv (Nat.le_refl _) hR
  rw [List.forall₂_eq_eq_eq] at m
  subst m
  exact Rd.bindN (ident_rd hu) (Rd.map (g := SelName.mk p.head) f)

theorem use_rd {l : List LPath} {w R : List VTok} (h : useToks l w) : Rd None' useClause w R (l.map fun p => ⟨p.head, p.rest⟩) := by
  obtain ⟨w0, _, rfl, h0, w1, w2, rfl, h1, h2⟩ := h
  obtain ⟨ts, m, f⟩ := sep_rd (p := selectedName) (T := LPath.Toks) (Mx := fun t (p : LPath) => t = ⟨p.head, p.rest⟩) (D := None') (C := Nx [.SEMI]) (k := w1.length)
    (fun R hR => hR.not (by decide)) (fun _ h => h.elim)
    (fun b u R hb _ hR => ⟨_, rfl, path_rd hb (by rcases hR with h | h; exacts [⟨_, h, by decide⟩, h.mono (by decide)])⟩) h1 (Nat.le_refl _)
    (R := w2 ++ R) (Nx.one h2 (by decide))
  have e : ts = l.map fun p => ⟨p.head, p.rest⟩ := by
    clear f h1
    induction m with
    | nil => rfl
    | cons h _ ih => rw [List.map_cons, h, ih]
  rw [← e]
  exact Rd.tok h0 (Rd.bindN f (Rd.last h2))

end Verif.Vhdl
