import Verif.SvStmGood
import Verif.SvGenLemmas
import Verif.Sv.ItemGrammar
import Verif.Spec.SvItemText
/-!
# SystemVerilog items: the supported fragment, and the tokens items begin with
-/
namespace Verif.Spec.SvLrm
open Verif.Sv Verif.Spec.Sv Verif.Spec

/-! ## What the visitors convert -/

mutual
/-- `null`, possibly in parentheses. -/
def SExp.isNull : SExp → Bool
  | .prim p => p.isNull
  | _ => false
def SPrim.isNull : SPrim → Bool
  | .lit .null => true
  | .paren e => e.isNull
  | _ => false
end

def SNamedConn.Ok : SNamedConn → Prop
  | .star => True
  | .empty i => okIdent i
  | .val i e => okIdent i ∧ e.Ok ∧ e.isNull = false

def connOk : Option SExp → Prop
  | none => True
  | some e => e.Ok ∧ e.isNull = false

def SConns.Ok : SConns → Prop
  | .pos a l => ∀ x ∈ a :: l, connOk x
  | .named a l => ∀ x ∈ a :: l, x.Ok

def SGenStep.Ok : SGenStep → Prop
  | .assign i _ e => okIdent i ∧ e.Ok
  | .incDec _ _ i => okIdent i

def rangeOk : Option (SExp × SExp) → Prop
  | none => True
  | some r => r.1.Ok ∧ r.2.Ok

def SItem.isRegion : SItem → Bool
  | .region _ => true
  | _ => false

/-- The item stands for one object. -/
def SItem.one : SItem → Bool
  | .vars _ _ _ l => l.isEmpty
  | .atoms _ _ l => l.isEmpty
  | .nets _ _ _ l => l.isEmpty
  | .local_ _ _ l => l.isEmpty
  | .assign _ l => l.isEmpty
  | .genvar _ l => l.isEmpty
  | .inst _ _ _ l => l.isEmpty
  | .region _ => false
  | _ => true

def SGCase.isDflt : SGCase → Bool
  | .dflt _ _ => true
  | .exprs _ _ _ => false

mutual
/-- What the visitors convert: all expressions and statements do; a net which is no `wire` has a range; `always` has a delay or event control, and `always_comb`, `always_ff` and
`always_latch` have no delay; no `initial fork`; the module of an instance is no escaped identifier and has not the name of a gate; no `null` as
connection; the `else` branch is no region; branches of `case` are one object, and not more than one `default`; no label at the end of a block without a label at its
beginning. -/
def SItem.Ok : SItem → Prop
  | .semi => True
  | .atoms _ a l => ∀ x ∈ a :: l, okIdent x.1 ∧ ∀ e, x.2 = some e → e.Ok
  | .vars _ r a l => rangeOk r ∧ ∀ x ∈ a :: l, okIdent x.1 ∧ ∀ e, x.2 = some e → e.Ok
  | .nets k r a l => rangeOk r ∧ (r = none → k = .wire) ∧ ∀ x ∈ a :: l, okIdent x.1 ∧ ∀ e, x.2 = some e → e.Ok
  | .local_ t a l => (∀ k r, t = .vec k r → rangeOk r) ∧ ∀ x ∈ a :: l, okIdent x.1 ∧ x.2.Ok
  | .assign a l => ∀ x ∈ a :: l, x.1.Ok ∧ x.2.Ok
  | .genvar i l => ∀ x ∈ i :: l, okIdent x
  | .initial s => s.Ok ∧ s.isFork = false
  | .always kw s => s.Ok ∧ (s.isTiming = true ↔ kw = .always)
  | .alwaysAt _ e s => e.Ok ∧ s.Ok
  | .inst m ps a l => (m.esc = false ∧ isKw m.text = false ∧ gateOf m.text = none) ∧ (∀ p ∈ ps, okIdent p.1 ∧ p.2.Ok) ∧ ∀ x ∈ a :: l, okIdent x.1 ∧ x.2.Ok
  | .ite c t => c.Ok ∧ t.Ok
  | .iteElse c t f => c.Ok ∧ t.Ok ∧ f.Ok ∧ f.isRegion = false
  | .case e c l => e.Ok ∧ c.Ok ∧ gcasesOk l ∧ ((c :: l).filter SGCase.isDflt).length ≤ 1
  | .for_ _ i v c s b => okIdent i ∧ v.Ok ∧ c.Ok ∧ s.Ok ∧ b.Ok
  | .block n l e => okGenLabel n ∧ okGenLabel e ∧ (n = none → e = none) ∧ itemsOk l
  | .region l => itemsOk l
def itemsOk : List SItem → Prop
  | [] => True
  | g :: l => g.Ok ∧ itemsOk l
def SGCase.Ok : SGCase → Prop
  | .exprs e l g => e.Ok ∧ expsOk l ∧ g.Ok ∧ g.one = true
  | .dflt _ g => g.Ok ∧ g.one = true
def gcasesOk : List SGCase → Prop
  | [] => True
  | c :: l => c.Ok ∧ gcasesOk l
end

end Verif.Spec.SvLrm

namespace Verif.Sv
open P Verif.Spec.SvLrm Verif.Spec.Sv

variable {V S W : Type} {A : Alg V} {Bs : SAlg V S} {N : MAlg V S W} {B : Rules} {C : StmRules} {G : ItemRules}

/-! ## `null` -/

/-- Is it `null`? -/
def nullAlg : Alg Bool where
  ident _ := false
  kw _ := false
  lit _ := false
  nul := true
  flag _ := false
  un _ _ := false
  bin _ _ _ := false
  cond _ _ _ := false
  concat _ := false
  repl _ _ := false
  index _ _ := false
  call _ _ := false
  pattern _ := false
  param _ _ := false
  other _ _ := false

mutual
theorem null_exp : ∀ t : Exp, isNullExp t = true → evExp nullAlg t = true
  | .prim p, h => by rw [isNullExp] at h; rw [evExp]; exact null_prim p h
  | .opAssign, h => by simp [isNullExp] at h
  | .tagged, h => by simp [isNullExp] at h
  | .unary _ _, h => by simp [isNullExp] at h
  | .incDec _ _ _, h => by simp [isNullExp] at h
  | .bin _ _ _, h => by simp [isNullExp] at h
  | .tripleAnd _ _ _ _, h => by simp [isNullExp] at h
  | .inside _, h => by simp [isNullExp] at h
  | .cond _ _ _ _, h => by simp [isNullExp] at h
theorem null_prim : ∀ p : Prim, isNullPrim p = true → evPrim nullAlg p = true
  | .par m, h => by rw [isNullPrim] at h; rw [evPrim]; exact null_mtm m h
  | .lit l, h => by cases l <;> first | (rw [evPrim]; rfl) | simp [isNullPrim] at h
  | .path _, h => by simp [isNullPrim] at h
  | .cast, h => by simp [isNullPrim] at h
  | .cast2 _ _, h => by simp [isNullPrim] at h
  | .bitSel _ _, h => by simp [isNullPrim] at h
  | .dot _ _, h => by simp [isNullPrim] at h
  | .index _ _, h => by simp [isNullPrim] at h
  | .concat _, h => by simp [isNullPrim] at h
  | .streaming, h => by simp [isNullPrim] at h
  | .tfCall0 _, h => by simp [isNullPrim] at h
  | .tfCall _ _ _, h => by simp [isNullPrim] at h
  | .tfCallT _ _ _ _, h => by simp [isNullPrim] at h
  | .randomize, h => by simp [isNullPrim] at h
  | .randomize2, h => by simp [isNullPrim] at h
  | .assig _ _, h => by simp [isNullPrim] at h
  | .typeRef _, h => by simp [isNullPrim] at h
  | .call0 _ _ _, h => by simp [isNullPrim] at h
  | .call _ _ _ _, h => by simp [isNullPrim] at h
  | .methodNoArgs _ _, h => by simp [isNullPrim] at h
  | .callWith _ _ _, h => by simp [isNullPrim] at h
theorem null_mtm : ∀ m : MTM, isNullMTM m = true → evMTM nullAlg m = true
  | .one e, h => by rw [isNullMTM] at h; rw [evMTM]; exact null_exp e h
  | .three _ _ _, h => by simp [isNullMTM] at h
end

theorem null_ids : ∀ l : List Ident, evIds nullAlg false l = false
  | [] => rfl
  | _ :: l => null_ids l

mutual
theorem null_sexp : ∀ e : SExp, e.eval nullAlg = e.isNull
  | .prim p => by rw [SExp.eval, SExp.isNull]; exact null_sprim p
  | .un _ _ => by rw [SExp.eval]; rfl
  | .bin _ _ _ => by rw [SExp.eval]; rfl
  | .cond _ _ _ => by rw [SExp.eval]; rfl
theorem null_sprim : ∀ p : SPrim, p.eval nullAlg = p.isNull
  | .paren e => by rw [SPrim.eval, SPrim.isNull]; exact null_sexp e
  | .lit l => by cases l <;> (rw [SPrim.eval]; rfl)
  | .name i l => by rw [SPrim.eval]; exact null_ids l
  | .cast _ _ => by rw [SPrim.eval]; rfl
  | .bit _ _ => by rw [SPrim.eval]; rfl
  | .part _ _ _ _ => by rw [SPrim.eval]; rfl
  | .dot _ _ => by rw [SPrim.eval]; rfl
  | .concat _ _ => by rw [SPrim.eval]; rfl
  | .repl _ _ [] => by rw [SPrim.eval]; rfl
  | .repl _ _ (_ :: _) => by rw [SPrim.eval]; rfl; simp
  | .pat _ _ => by rw [SPrim.eval]; rfl
  | .patKeys _ _ => by rw [SPrim.eval]; rfl
  | .sys _ => by rw [SPrim.eval]; rfl
  | .sysCall _ _ => by rw [SPrim.eval]; rfl
  | .call _ _ => by rw [SPrim.eval]; rfl
end

theorem First.unique {α : Type} {p : P α} {ts r r' : List STok} {a b : α} (h1 : First None' p ts a r) (h2 : First None' p ts b r') : a = b := by
  obtain ⟨pre, post, e, h⟩ := h1
  obtain ⟨pre', post', e', h'⟩ := h2
  cases pre with
  | cons x l => exact (h x (by simp)).elim
  | nil =>
    cases pre' with
    | cons x l => exact (h' x (by simp)).elim
    | nil => rw [e] at e'; cases e'; rfl

/-- An expression as a connection. -/
theorem conn_first {e : SExp} {w : List STok} (h : e.Toks w) {M : Nat} (hM : w.length < M) {R : List STok} (hR : Sep R) :
    ∃ t, ME A t e ∧ (e.Ok → e.isNull = false → okConnVal t) ∧ First None' ((env B M).expression 0) (w ++ R) t R := by
  obtain ⟨t, ht, ft⟩ := exp_first (A := A) (B := B) h hM hR
  obtain ⟨t', ht', ft'⟩ := exp_first (A := nullAlg) (B := B) h hM hR
  refine ⟨t, ht, fun h1 h2 => ⟨ht.ok h1, ?_⟩, ft⟩
  cases hn : isNullExp t with
  | false => rfl
  | true =>
    have := null_exp t hn
    rw [ft.unique ft', ht'.ev, null_sexp, h2] at this
    cases this

/-! ## Where items begin -/

/-- The alternative of an item a token begins. -/
def iHead : ST → Nat
  | .SEMI | .KW_LOCALPARAM | .KW_PARAMETER => 1
  | .KW_SUPPLY0 | .KW_SUPPLY1 | .KW_TRI | .KW_TRIAND | .KW_TRIOR | .KW_TRIREG | .KW_TRI0 | .KW_TRI1 | .KW_UWIRE | .KW_WIRE | .KW_WAND | .KW_WOR => 2
  | .KW_BIT | .KW_LOGIC | .KW_REG => 3
  | .KW_BYTE | .KW_SHORTINT | .KW_INT | .KW_LONGINT | .KW_INTEGER | .KW_TIME | .KW_SHORTREAL | .KW_REAL | .KW_REALTIME => 3
  | .KW_GENVAR => 4
  | .KW_INITIAL => 5
  | .KW_ALWAYS | .KW_ALWAYS_COMB | .KW_ALWAYS_FF | .KW_ALWAYS_LATCH => 6
  | .KW_ASSIGN => 7
  | .KW_FOR => 8
  | .KW_IF => 9
  | .KW_CASE => 10
  | .KW_GENERATE => 11
  | .KW_BEGIN => 12
  | .KW_INPUT | .KW_OUTPUT | .KW_INOUT | .KW_END | .KW_ENDGENERATE | .KW_ENDMODULE => 20
  | _ => 0

/-- The alternatives up to number `k` do not begin with the token. -/
def ilater (k : Nat) (t : ST) : Bool := decide (k < iHead t)

theorem ilater_mono {k m : Nat} (h : k ≤ m) {t : ST} (ht : ilater m t = true) : ilater k t = true := by
  simp only [ilater, decide_eq_true_eq] at ht ⊢; omega

theorem start_mem {t : ST} (h : ilater 0 t = true) : t ∈ itemStart := by
  revert h; cases t <;> decide

theorem id_mem {t : ST} (h : isIdTok t = true) : t ∈ idTypes := by
  revert h; cases t <;> decide

theorem NotAt.noAt {α : Type} {p : P α} (h : NotAt itemStart p) : NoAt (ilater 0) p := by
  rintro ts hts
  cases ts with
  | nil => exact h.1
  | cons y s => exact h.2 y s (start_mem (hts y s rfl))

theorem NotAt.sub {α : Type} {p : P α} {l m : List ST} (h : NotAt (l ++ m) p) : NotAt l p := ⟨h.1, fun y r hy => h.2 y r (List.mem_append_left _ hy)⟩
theorem NotAt.subR {α : Type} {p : P α} {l m : List ST} (h : NotAt (l ++ m) p) : NotAt m p := ⟨h.1, fun y r hy => h.2 y r (List.mem_append_right _ hy)⟩

section
variable (B C G) (M : Nat) (F : P Stm) (H : P GItem)

theorem ident_ilater : NoAt (ilater 0) identifier := identifier_no.mono fun t => by cases t <;> decide
theorem udp_later : NoAt (ilater 0) (udpInstantiation G (env B M)) := .bind ident_ilater
theorem inst_later : NoAt (ilater 0) (moduleInstantiation (env B M)) := .bind ident_ilater
theorem semi_later : NoAt (ilater 1) (semiItem G (env B M)) := by
  refine .optBind ?_ (.bind (.tok rfl))
  noat_alts
  exact ⟨.bind (G.default_no.noAt.mono fun t h => ilater_mono (by decide) h), .bind (.tok rfl), .bind (.tok rfl), by simp⟩
theorem net_later : NoAt (ilater 2) (netDeclaration G (env B M)) := by
  refine .bind ?_
  noat_alts
  exact ⟨.bind (.tok rfl), .bind (.texts (by decide)), .bind (ident_ilater.mono fun t h => ilater_mono (by decide) h), by simp⟩
theorem data_later : NoAt (ilater 3) (dataDeclaration C (env B M)) := by
  noat_alts
  refine ⟨flag_no rfl (.bind (.or (.bind (.tok rfl)) (.optBind (lifetime_no rfl rfl) (.bind ?_)))), .bind (.tok rfl), .bind (.bind (.tok rfl)), .bind (.bind (.tok rfl)), by simp⟩
  exact .or (.bind ((dataType_eNo B M).mono fun t => by cases t <;> decide)) (.bind (implicit_no _ rfl rfl rfl))
theorem genvar_later : NoAt (ilater 4) genvarDeclaration := .bind (.tok rfl)
theorem initial_later : NoAt (ilater 5) (initialConstruct (env B M) F) := .bind (.tok rfl)
theorem always_later : NoAt (ilater 6) (alwaysConstruct F) := .bind (.toks (by decide))
theorem cassign_later : NoAt (ilater 7) (continuousAssign G (env B M)) := .bind (.tok rfl)
theorem gfor_later : NoAt (ilater 8) (loopGenerate (env B M) H) := .bind (.tok rfl)
theorem gif_later : NoAt (ilater 9) (ifGenerate (env B M) H) := .bind (.tok rfl)
theorem gcase_later : NoAt (ilater 10) (caseGenerate (env B M) H) := .bind (.tok rfl)
theorem region_later : NoAt (ilater 11) (generateRegion H) := .bind (.tok rfl)
theorem gblock_later : NoAt (ilater 12) (generateBlock H) := .optBind (.bind (ident_ilater.mono fun t h => ilater_mono (by decide) h)) (.bind (.tok rfl))

theorem checker_later : NoAt (ilater 7) (checkerItem G (env B M) F) := by
  have m : ∀ {k : Nat}, k ≤ 7 → ∀ t, ilater 7 t = true → ilater k t = true := fun h t => ilater_mono h
  noat_alts
  exact ⟨G.routine_no.noAt.mono (m (by decide)), genvar_later.mono (m (by decide)), .bind (G.clocking_no.noAt.mono (m (by decide))), (initial_later B M F).mono (m (by decide)),
    (always_later F).mono (m (by decide)), G.assertion_no.noAt.mono (m (by decide)), cassign_later B G M, by simp⟩

theorem interface_later : NoAt (ilater 10) (interfaceItem C G (env B M) F H) := by
  have m : ∀ {k : Nat}, k ≤ 10 → ∀ t, ilater 10 t = true → ilater k t = true := fun h t => ilater_mono h
  noat_alts
  exact ⟨.bind ((inst_later B M).mono (m (by decide))), (semi_later B G M).mono (m (by decide)), .bind ((net_later B G M).mono (m (by decide))), .bind ((data_later B C M).mono (m (by decide))),
    .bind (G.task_no.noAt.mono (m (by decide))), (checker_later B G M F).mono (m (by decide)), G.classes_no.noAt.mono (m (by decide)), (gfor_later B M H).mono (m (by decide)),
    (gif_later B M H).mono (m (by decide)), gcase_later B M H, .bind (G.elab_no.noAt.mono (m (by decide))), by simp⟩

theorem mog_later : NoAt (ilater 10) (moduleOrGenerateItem C G (env B M) F H) := by
  have m : ∀ {k : Nat}, k ≤ 10 → ∀ t, ilater 10 t = true → ilater k t = true := fun h t => ilater_mono h
  noat_alts
  exact ⟨.bind (G.override_no.sub.noAt.mono (m (by decide))), .bind (G.gate_no.sub.noAt.mono (m (by decide))), .bind ((udp_later B G M).mono (m (by decide))),
    interface_later B C G M F H, by simp⟩

theorem gitem_main : NoAt (ilater 10) (attributes (env B M) >>= fun _ => P.or (moduleOrGenerateItem C G (env B M) F H >>= fun i => pure (GItem.item i))
    (G.externTf >>= fun _ => pure .externTf)) :=
  .manyBind (attributeInstance_no _ rfl) (.or (.bind (mog_later B C G M F H)) (.bind (G.extern_no.noAt.mono fun t h => ilater_mono (by decide) h)))

theorem gitem_end {y : STok} (hy : iHead y.ty = 20) (R : List STok) (n : Nat) : generateItem C G (env B M) F n (y :: R) = [] := by
  cases n with
  | zero => rfl
  | succ n =>
    have k : ∀ {m : Nat}, m < 20 → ilater m y.ty = true := fun hm => by simp only [ilater, decide_eq_true_eq, hy]; exact hm
    have h : NoAt (ilater 12) (generateItemRule C G (env B M) F (generateItem C G (env B M) F n)) := by
      generalize generateItem C G (env B M) F n = H
      have m : ∀ {k : Nat}, k ≤ 12 → ∀ t, ilater 12 t = true → ilater k t = true := fun h t => ilater_mono h
      noat_alts
      exact ⟨(gitem_main B C G M F H).mono (m (by decide)), .bind (.tok rfl), .bind ((region_later H).mono (m (by decide))), gblock_later H, by simp⟩
    exact h.cons (k (by decide))
end

section
variable {F : P Stm} {H : P GItem} {M : Nat} {w R : List STok} {x : STok} {i : GenItem}

/-- An item without attributes. -/
theorem gi_main (hx : x.ty ≠ .LPAREN) (h : First None' (moduleOrGenerateItem C G (env B M) F H) (x :: w) i R) :
    First None' (generateItemRule C G (env B M) F H) (x :: w) (.item i) R :=
  First.orL (First.bindH (a := []) (First.of_eq (attributes_ne hx)) (First.orL (First.bindH h (First.ret _ _))))

theorem gi_interface {k : Nat} (hx : iHead x.ty = k) (hk : 0 < k) (h : First None' (interfaceItem C G (env B M) F H) (x :: w) i R) :
    First None' (generateItemRule C G (env B M) F H) (x :: w) (.item i) R := by
  have l : ilater 0 x.ty = true := by simp only [ilater, decide_eq_true_eq, hx]; exact hk
  refine gi_main (by intro e; rw [e] at l; cases l) ?_
  exact First.orN (bind_nil (G.override_no.sub.noAt.cons l)) (First.orN (bind_nil (G.gate_no.sub.noAt.cons l)) (First.orN (bind_nil ((udp_later B G M).cons l)) h))

theorem gi_semi (hx : iHead x.ty = 1) (h : First None' (semiItem G (env B M)) (x :: w) i R) : First None' (generateItemRule C G (env B M) F H) (x :: w) (.item i) R := by
  have l : ilater 0 x.ty = true := by simp only [ilater, decide_eq_true_eq, hx]; decide
  exact gi_interface hx (by decide) (First.orN (bind_nil ((inst_later B M).cons l)) (First.orL h))

theorem gi_net {d : NetDecl} (hx : iHead x.ty = 2) (h : First None' (netDeclaration G (env B M)) (x :: w) d R) :
    First None' (generateItemRule C G (env B M) F H) (x :: w) (.item (.net d)) R := by
  have l : ∀ {m : Nat}, m ≤ 1 → ilater m x.ty = true := fun hm => by simp only [ilater, decide_eq_true_eq, hx]; omega
  exact gi_interface hx (by omega) (First.orN (bind_nil ((inst_later B M).cons (l (by decide)))) (First.orN ((semi_later B G M).cons (l (by decide)))
    (First.orL (First.map (f := GenItem.net) h))))

theorem gi_data {d : DataDecl} (hx : iHead x.ty = 3) (h : First None' (dataDeclaration C (env B M)) (x :: w) d R) :
    First None' (generateItemRule C G (env B M) F H) (x :: w) (.item (.data d)) R := by
  have l : ∀ {m : Nat}, m ≤ 2 → ilater m x.ty = true := fun hm => by simp only [ilater, decide_eq_true_eq, hx]; omega
  exact gi_interface hx (by omega) (First.orN (bind_nil ((inst_later B M).cons (l (by decide)))) (First.orN ((semi_later B G M).cons (l (by decide)))
    (First.orN (bind_nil ((net_later B G M).cons (l (by decide)))) (First.orL (First.map (f := GenItem.data) h)))))

theorem gi_check {k : Nat} (hx : iHead x.ty = k) (hk : 3 < k) (h : First None' (checkerItem G (env B M) F) (x :: w) i R) :
    First None' (generateItemRule C G (env B M) F H) (x :: w) (.item i) R := by
  have l : ∀ {m : Nat}, m ≤ 3 → ilater m x.ty = true := fun hm => by simp only [ilater, decide_eq_true_eq, hx]; omega
  exact gi_interface hx (by omega) (First.orN (bind_nil ((inst_later B M).cons (l (by decide)))) (First.orN ((semi_later B G M).cons (l (by decide)))
    (First.orN (bind_nil ((net_later B G M).cons (l (by decide)))) (First.orN (bind_nil ((data_later B C M).cons (l (by decide))))
    (First.orN (bind_nil (G.task_no.noAt.cons (l (by decide)))) (First.orL h))))))

theorem gi_genvar (hx : iHead x.ty = 4) (h : First None' genvarDeclaration (x :: w) i R) : First None' (generateItemRule C G (env B M) F H) (x :: w) (.item i) R := by
  have l : ilater 0 x.ty = true := by simp only [ilater, decide_eq_true_eq, hx]; decide
  exact gi_check hx (by decide) (First.orN (G.routine_no.noAt.cons l) (First.orL h))

theorem gi_initial (hx : iHead x.ty = 5) (h : First None' (initialConstruct (env B M) F) (x :: w) i R) : First None' (generateItemRule C G (env B M) F H) (x :: w) (.item i) R := by
  have l : ∀ {m : Nat}, m ≤ 4 → ilater m x.ty = true := fun hm => by simp only [ilater, decide_eq_true_eq, hx]; omega
  exact gi_check hx (by decide) (First.orN (G.routine_no.noAt.cons (l (by decide))) (First.orN (genvar_later.cons (l (by decide)))
    (First.orN (bind_nil (G.clocking_no.noAt.cons (l (by decide)))) (First.orL h))))

theorem gi_always (hx : iHead x.ty = 6) (h : First None' (alwaysConstruct F) (x :: w) i R) : First None' (generateItemRule C G (env B M) F H) (x :: w) (.item i) R := by
  have l : ∀ {m : Nat}, m ≤ 5 → ilater m x.ty = true := fun hm => by simp only [ilater, decide_eq_true_eq, hx]; omega
  exact gi_check hx (by decide) (First.orN (G.routine_no.noAt.cons (l (by decide))) (First.orN (genvar_later.cons (l (by decide)))
    (First.orN (bind_nil (G.clocking_no.noAt.cons (l (by decide)))) (First.orN ((initial_later B M F).cons (l (by decide))) (First.orL h)))))

theorem gi_assign (hx : iHead x.ty = 7) (h : First None' (continuousAssign G (env B M)) (x :: w) i R) : First None' (generateItemRule C G (env B M) F H) (x :: w) (.item i) R := by
  have l : ∀ {m : Nat}, m ≤ 6 → ilater m x.ty = true := fun hm => by simp only [ilater, decide_eq_true_eq, hx]; omega
  exact gi_check hx (by decide) (First.orN (G.routine_no.noAt.cons (l (by decide))) (First.orN (genvar_later.cons (l (by decide)))
    (First.orN (bind_nil (G.clocking_no.noAt.cons (l (by decide)))) (First.orN ((initial_later B M F).cons (l (by decide))) (First.orN ((always_later F).cons (l (by decide)))
    (First.orN (G.assertion_no.noAt.cons (l (by decide))) h))))))

/-- The alternatives behind `checkerItem`. -/
theorem gi_gen {k : Nat} (hx : iHead x.ty = k) (hk : 7 < k) (h : First None' (P.or (loopGenerate (env B M) H) (P.or (ifGenerate (env B M) H) (P.or (caseGenerate (env B M) H)
    (G.elabTask >>= fun t => pure (.elab t))))) (x :: w) i R) : First None' (generateItemRule C G (env B M) F H) (x :: w) (.item i) R := by
  have l : ∀ {m : Nat}, m ≤ 7 → ilater m x.ty = true := fun hm => by simp only [ilater, decide_eq_true_eq, hx]; omega
  exact gi_interface hx (by omega) (First.orN (bind_nil ((inst_later B M).cons (l (by decide)))) (First.orN ((semi_later B G M).cons (l (by decide)))
    (First.orN (bind_nil ((net_later B G M).cons (l (by decide)))) (First.orN (bind_nil ((data_later B C M).cons (l (by decide))))
    (First.orN (bind_nil (G.task_no.noAt.cons (l (by decide)))) (First.orN ((checker_later B G M F).cons (l (by decide))) (First.orN (G.classes_no.noAt.cons (l (by decide))) h)))))))

theorem gi_for (hx : iHead x.ty = 8) (h : First None' (loopGenerate (env B M) H) (x :: w) i R) : First None' (generateItemRule C G (env B M) F H) (x :: w) (.item i) R :=
  gi_gen hx (by decide) (First.orL h)
theorem gi_if (hx : iHead x.ty = 9) (h : First None' (ifGenerate (env B M) H) (x :: w) i R) : First None' (generateItemRule C G (env B M) F H) (x :: w) (.item i) R := by
  have l : ∀ {m : Nat}, m ≤ 8 → ilater m x.ty = true := fun hm => by simp only [ilater, decide_eq_true_eq, hx]; omega
  exact gi_gen hx (by decide) (First.orN ((gfor_later B M H).cons (l (by decide))) (First.orL h))
theorem gi_case (hx : iHead x.ty = 10) (h : First None' (caseGenerate (env B M) H) (x :: w) i R) : First None' (generateItemRule C G (env B M) F H) (x :: w) (.item i) R := by
  have l : ∀ {m : Nat}, m ≤ 9 → ilater m x.ty = true := fun hm => by simp only [ilater, decide_eq_true_eq, hx]; omega
  exact gi_gen hx (by decide) (First.orN ((gfor_later B M H).cons (l (by decide))) (First.orN ((gif_later B M H).cons (l (by decide))) (First.orL h)))
theorem gi_region (hx : iHead x.ty = 11) {l : List GItem} (h : First None' (generateRegion H) (x :: w) l R) : First None' (generateItemRule C G (env B M) F H) (x :: w) (.region l) R := by
  have l : ∀ {m : Nat}, m ≤ 10 → ilater m x.ty = true := fun hm => by simp only [ilater, decide_eq_true_eq, hx]; omega
  exact First.orN ((gitem_main B C G M F H).cons (l (by decide))) (First.orN (bind_nil (tok_neg (by intro e; rw [e] at hx; cases hx) _)) (First.orL (First.bindH h (First.ret _ _))))
theorem gi_block (hx : iHead x.ty = 12) {t : GItem} (h : First None' (generateBlock H) (x :: w) t R) : First None' (generateItemRule C G (env B M) F H) (x :: w) t R := by
  have l : ∀ {m : Nat}, m ≤ 11 → ilater m x.ty = true := fun hm => by simp only [ilater, decide_eq_true_eq, hx]; omega
  exact First.orN ((gitem_main B C G M F H).cons (l (by decide))) (First.orN (bind_nil (tok_neg (by intro e; rw [e] at hx; cases hx) _))
    (First.orN (bind_nil ((region_later H).cons (l (by decide)))) h))
end

/-- The first token of an item. -/
theorem gitem_head {g : SItem} {w : List STok} (h : g.Toks w) : ∃ x v, w = x :: v ∧ (isIdTok x.ty = true ∨ (0 < iHead x.ty ∧ iHead x.ty < 20)) := by
  cases g with
  | semi => rw [SItem.Toks] at h; obtain ⟨x, rfl, hx⟩ := h; exact ⟨x, _, rfl, .inr (by rw [hx]; decide)⟩
  | atoms k a l => rw [SItem.Toks] at h; obtain ⟨_, _, rfl, ⟨x, rfl, hx, -⟩, -⟩ := h; exact ⟨x, _, rfl, .inr (by rw [hx]; cases k <;> decide)⟩
  | vars k r a l => rw [SItem.Toks] at h; obtain ⟨_, _, rfl, ⟨x, rfl, hx, -⟩, -⟩ := h; exact ⟨x, _, rfl, .inr (by rw [hx]; cases k <;> decide)⟩
  | nets k r a l => rw [SItem.Toks] at h; obtain ⟨_, _, rfl, ⟨x, rfl, hx, -⟩, -⟩ := h; exact ⟨x, _, rfl, .inr (by rw [hx]; cases k <;> decide)⟩
  | always kw s => rw [SItem.Toks] at h; obtain ⟨-, -, _, _, rfl, ⟨x, rfl, hx⟩, -⟩ := h; exact ⟨x, _, rfl, .inr (by rw [hx]; cases kw <;> decide)⟩
  | alwaysAt kw e s => rw [SItem.Toks] at h; obtain ⟨_, _, rfl, ⟨x, rfl, hx⟩, -⟩ := h; exact ⟨x, _, rfl, .inr (by rw [hx]; cases kw <;> decide)⟩
  | inst m ps a l => rw [SItem.Toks] at h; obtain ⟨_, _, rfl, ⟨x, rfl, hx⟩, -⟩ := h; exact ⟨x, _, rfl, .inl (ident_id hx)⟩
  | iteElse c t f => rw [SItem.Toks] at h; obtain ⟨-, _, _, rfl, ⟨x, rfl, hx⟩, -⟩ := h; exact ⟨x, _, rfl, .inr (by rw [hx]; decide)⟩
  | _ => rw [SItem.Toks] at h; obtain ⟨_, _, rfl, ⟨x, rfl, hx⟩, -⟩ := h; exact ⟨x, _, rfl, .inr (by rw [hx]; decide)⟩

theorem gitem_ne {g : SItem} {w : List STok} (h : g.Toks w) {t : ST} (h1 : isIdTok t = false) (h2 : iHead t = 0) (R : List STok) : ∀ y s, w ++ R = y :: s → y.ty ≠ t := by
  obtain ⟨x, v, rfl, hx⟩ := gitem_head h
  rintro _ _ ⟨⟩ rfl
  rcases hx with hx | hx
  · rw [h1] at hx; cases hx
  · rw [h2] at hx; exact absurd hx.1 (by decide)

theorem gitem_nonempty {g : SItem} {w : List STok} (h : g.Toks w) : w ≠ [] := by
  obtain ⟨x, v, rfl, -⟩ := gitem_head h; simp

theorem SEnd.item {o : Bool} {g : SItem} {w : List STok} (h : g.Toks w) (R : List STok) : SEnd o (w ++ R) :=
  fun y v e => ⟨gitem_ne h rfl rfl R y v e, fun _ => gitem_ne h rfl rfl R y v e⟩

end Verif.Sv
