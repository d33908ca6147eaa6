import Verif.SvParItem
/-!
# The parse of SystemVerilog items
-/
namespace Verif.Sv
open P Verif.Spec.SvLrm Verif.Spec.Sv

variable {V S W : Type} {A : Alg V} {Bs : SAlg V S} {N : MAlg V S W} {B : Rules} {C : StmRules} {G : ItemRules}

variable (A Bs N) in
/-- A tree of an item means the same as the text. -/
structure MG (t : GItem) (g : SItem) : Prop where
  ev : evGItem A Bs N t = g.eval A Bs N
  ok : g.Ok → okGItem t
  region : isRegion t = g.isRegion
  one : oneG t = g.one
  shape : g.isBlock = false → g.isRegion = false → ∃ i, t = .item i ∧ ∀ d, i ≠ .param d
  names : gItemNames t = g.names

variable (A Bs N) in
/-- The rule `H` reads items up to length `k`. -/
def GoodG (H : P GItem) (k : Nat) : Prop := ∀ (g : SItem) (w : List STok), g.Toks w → w.length ≤ k → ∀ R, SEnd g.openIf R →
  ∃ t, MG A Bs N t g ∧ First None' H (w ++ R) t R

/-! ## Processes -/

theorem plain_first {M m : Nat} (hm : m + 1 < M) {s : SStm} {w : List STok} (hp : s.plain = true) (h : s.Toks w) (hk : w.length ≤ m + 1) {R : List STok} (hR : SEnd s.openIf R) :
    ∃ t, MI A Bs t s ∧ First None' (statement B C (env B M) (m + 1)) (w ++ R) (.mk none t) R := by
  obtain ⟨t, ht, ft⟩ := item_first (C := C) (good_stm (A := A) (Bs := Bs) (B := B) M m (by omega)) s w hp h hk (by omega) R hR
  exact ⟨t, ht, First.bindH (a := none) (First.noneE (stm_label hp h R)) (First.bindH (a := []) (First.of_eq (stm_attributes h _ R)) (First.bindH ft (First.ret _ _)))⟩

theorem timing_end {t : STiming} {b : SStm} {v : List STok} (hv : b.Toks v) (hh : t.isName = true → ∀ x s, v = x :: s → x.ty ≠ .HASH) (R : List STok) : TEnd t.isName (v ++ R) := by
  refine ⟨stm_ne hv rfl rfl R, fun hn y r e => ⟨?_, stm_ne hv rfl rfl R y r e, stm_ne hv rfl rfl R y r e, stm_ne hv rfl rfl R y r e⟩⟩
  have := stm_nonempty hv
  cases v with
  | nil => exact (this rfl).elim
  | cons a v => cases e; exact hh hn _ _ rfl

/-- A statement with a delay in front. -/
theorem delayStm_first {M m : Nat} (hm : m + 1 < M) {d : SDelay} {b : SStm} {w : List STok} (h : (SStm.timing (.delay d) b).Toks w) (hk : w.length ≤ m + 1) {R : List STok}
    (hR : SEnd b.openIf R) : ∃ td tb, MDl A td d ∧ MS A Bs tb b ∧ First None' (statement B C (env B M) (m + 1)) (w ++ R) (.mk none (.timing (.delay td) tb)) R := by
  have h0 := h
  rw [SStm.Toks] at h
  obtain ⟨u, v, rfl, hu, hv, hh⟩ := h
  obtain ⟨x, s, rfl, hx⟩ := timing_head hu
  simp only [List.length_append, List.length_cons] at hk
  obtain ⟨tt, mt, ft⟩ := delay_first (A := A) (B := B) hu (M := M) (by simp only [List.length_cons]; omega) (timing_end hv hh R).1
  obtain ⟨tb, mb, fb⟩ := good_stm (A := A) (Bs := Bs) (B := B) (C := C) M m (by omega) b v hv (by omega) R hR
  refine ⟨tt, tb, mt, mb, ?_⟩
  refine First.bindH (a := none) (First.noneE (stm_label rfl h0 R)) (First.bindH (a := []) (First.of_eq (stm_attributes h0 _ R)) (First.bindH (item_timing ?_ ?_) (First.ret _ _)))
  · rintro _ _ ⟨⟩; rcases hx with h | h <;> rw [h] <;> rfl
  · rw [List.append_assoc]
    exact First.bindH (First.orL (First.map (f := TimingCtl.delay) ft)) (First.bindH fb (First.ret _ _))

/-- A statement with an event control in front. -/
theorem eventStm_first {M m : Nat} (hm : m + 1 < M) {e : SEvent} {b : SStm} {w : List STok} (h : (SStm.timing (.event e) b).Toks w) (hk : w.length ≤ m + 1) {R : List STok}
    (hR : SEnd b.openIf R) : ∃ te tb, MEv A te e ∧ MS A Bs tb b ∧ First None' (statement B C (env B M) (m + 1)) (w ++ R) (.mk none (.timing (.event te) tb)) R := by
  have h0 := h
  rw [SStm.Toks] at h
  obtain ⟨u, v, rfl, hu, hv, hh⟩ := h
  have hu0 := hu
  obtain ⟨x, s, rfl, hx⟩ := timing_head hu
  simp only [List.length_append, List.length_cons] at hk
  obtain ⟨tt, mt, ft⟩ := event_first (A := A) (B := B) hu (M := M) (by simp only [List.length_cons]; omega) (timing_end hv hh R)
  have hn : delayControl (env B M) (x :: s ++ (v ++ R)) = [] := by
    have : x.ty = .AT := by
      cases e with
      | star => obtain ⟨_, _, e, ⟨x, rfl, hx⟩, -⟩ := hu0; cases e; exact hx
      | starParen => obtain ⟨_, _, e, ⟨x, rfl, hx⟩, -⟩ := hu0; cases e; exact hx
      | name p => obtain ⟨-, _, _, e, ⟨x, rfl, hx⟩, -⟩ := hu0; cases e; exact hx
      | list e l => obtain ⟨_, _, e, ⟨x, rfl, hx⟩, -⟩ := hu0; cases e; exact hx
    exact bind_nil (tok_neg (by rw [this]; decide) _)
  obtain ⟨tb, mb, fb⟩ := good_stm (A := A) (Bs := Bs) (B := B) (C := C) M m (by omega) b v hv (by omega) R hR
  refine ⟨tt, tb, mt, mb, ?_⟩
  refine First.bindH (a := none) (First.noneE (stm_label rfl h0 R)) (First.bindH (a := []) (First.of_eq (stm_attributes h0 _ R)) (First.bindH (item_timing ?_ ?_) (First.ret _ _)))
  · rintro _ _ ⟨⟩; rcases hx with h | h <;> rw [h] <;> rfl
  · rw [List.append_assoc]
    exact First.bindH (First.orN (bind_nil hn) (First.orL (First.map (f := TimingCtl.event) ft))) (First.bindH fb (First.ret _ _))

theorem alwaysKw_first {k : AlwaysKw} {x : STok} (h : x.ty = alwaysTy k) (R : List STok) :
    First None' (toks [(.KW_ALWAYS, AlwaysKw.always), (.KW_ALWAYS_COMB, .comb), (.KW_ALWAYS_LATCH, .latch), (.KW_ALWAYS_FF, .ff)]) (x :: R) k R := by
  refine First.of_eq ?_
  rw [P.toks, alts_apply]
  cases k <;> simp [bind_apply, tok_cons, h, alwaysTy, pure_apply]

theorem evAlways_none {kw : AlwaysKw} {t : StmItem} (h : ∀ e b, t ≠ .timing (.event e) b) : evAlways A Bs N kw (.mk none t) = N.always (triggerOf kw) none (evItem A Bs t) := by
  unfold evAlways
  split
  · rename_i heq; cases heq; exact (h _ _ rfl).elim
  · cases kw <;> (rw [evStm]; rfl)

theorem always_first {M m : Nat} (hm : m + 1 < M) {kw : AlwaysKw} {s : SStm} {w : List STok} (hp : s.plain = true) (ha : s.isAt = false) (h : s.Toks w) (hk : w.length ≤ m + 1)
    {R : List STok} (hR : SEnd s.openIf R) : ∃ t, (evAlways A Bs N kw t = N.always (triggerOf kw) none (s.eval A Bs) ∧ (s.Ok ∧ (s.isTiming = true ↔ kw = .always) → okAlways kw t)) ∧
    First None' (statement B C (env B M) (m + 1)) (w ++ R) t R := by
  by_cases ht : s.isTiming = true
  · obtain ⟨d, b, rfl⟩ : ∃ d b, s = .timing (.delay d) b := by
      cases s with
      | timing t b =>
        cases t with
        | delay d => exact ⟨d, b, rfl⟩
        | event e => cases ha
      | _ => cases ht
    obtain ⟨td, tb, md, mb, f⟩ := delayStm_first (A := A) (Bs := Bs) (B := B) (C := C) hm h hk hR
    refine ⟨_, ⟨?_, ?_⟩, f⟩
    · rw [evAlways_none (by simp), evItem, SStm.eval, md.ev, mb.ev]
    · rintro ⟨h1, h2⟩
      rw [SStm.Ok] at h1
      refine ⟨h2.1 rfl, ?_⟩
      rw [okStm, okItem]
      exact ⟨trivial, md.ok h1.1, mb.ok h1.2.1, by rw [mb.labBlock]; exact h1.2.2⟩
  · obtain ⟨t, mt, f⟩ := plain_first (A := A) (Bs := Bs) (B := B) (C := C) hm hp h hk hR
    have hn : ∀ c b, t ≠ .timing c b := fun c b e => ht (mt.tim c b e)
    refine ⟨_, ⟨?_, ?_⟩, f⟩
    · rw [evAlways_none fun _ _ => hn _ _, mt.ev]
    · rintro ⟨h1, h2⟩
      have h3 : kw ≠ .always := fun e => ht (h2.2 e)
      have h4 : okStm (.mk none t) := by rw [okStm]; exact ⟨trivial, mt.ok h1⟩
      unfold okAlways
      split
      · rename_i heq; cases heq; exact (hn _ _ rfl).elim
      · rename_i heq; cases heq; exact (hn _ _ rfl).elim
      · rename_i heq; cases heq
        refine ⟨h3, h4, ?_⟩
        cases t <;> first | rfl | exact (hn _ _ rfl).elim

/-! ## Sequences of items -/

/-- What follows the items of a block or region. -/
def GEnd (R : List STok) : Prop := ∃ y s, R = y :: s ∧ iHead y.ty = 20 ∧ y.ty ≠ .COLON ∧ y.ty ≠ .KW_ELSE

theorem GEnd.send {o : Bool} {R : List STok} (h : GEnd R) : SEnd o R := by
  obtain ⟨y, s, rfl, -, h1, h2⟩ := h
  rintro _ _ ⟨⟩
  exact ⟨h1, fun _ => h2⟩

theorem items_send {o : Bool} : ∀ {l : List SItem} {v : List STok}, itemsToks l v → ∀ {R}, GEnd R → SEnd o (v ++ R)
  | [], v, h, R, hR => by rw [itemsToks, Spec.SvLrm.Empty] at h; subst h; exact hR.send
  | s :: l, v, h, R, hR => by
    rw [itemsToks] at h
    obtain ⟨u, v, rfl, hu, -⟩ := h
    rw [List.append_assoc]; exact .item hu _

theorem items_first {M n : Nat} {F : P Stm} (hF : GoodG A Bs N (generateItem C G (env B M) F n) n) : ∀ (l : List SItem) (v : List STok), itemsToks l v → v.length ≤ n →
    ∀ R, GEnd R → ∃ ts, (evGItems A Bs N ts = itemsEval A Bs N l ∧ (itemsOk l → okGItems ts) ∧ gItemsNames ts = itemsNames l) ∧
    ∀ m, v.length ≤ m → First None' (manyN (generateItem C G (env B M) F n) m) (v ++ R) ts R
  | [], v, h, _, R, hR => by
    rw [itemsToks, Spec.SvLrm.Empty] at h; subst h
    obtain ⟨y, s, rfl, h1, -⟩ := hR
    exact ⟨[], ⟨rfl, fun _ => trivial, rfl⟩, fun m _ => First.of_eq (manyN_stop (gitem_end B C G M F h1 s n) m)⟩
  | s :: l, v, h, hk, R, hR => by
    rw [itemsToks] at h
    obtain ⟨u, v, rfl, hu, hv⟩ := h
    have hne := gitem_nonempty hu
    simp only [List.length_append] at hk
    obtain ⟨t, ht, ft⟩ := hF s u hu (by omega) (v ++ R) (items_send hv hR)
    obtain ⟨ts, ⟨hev, hok, hnm⟩, fts⟩ := items_first hF l v hv (by omega) R hR
    refine ⟨t :: ts, ⟨?_, ?_, by rw [gItemsNames, itemsNames, ht.names, hnm]⟩, ?_⟩
    · rw [evGItems, itemsEval, ht.ev, hev]
    · intro h; rw [itemsOk] at h; rw [okGItems]; exact ⟨ht.ok h.1, hok h.2⟩
    · intro m hm
      have : u.length ≠ 0 := by simpa using hne
      simp only [List.length_append] at hm
      obtain ⟨m, rfl⟩ : ∃ j, m = j + 1 := ⟨m - 1, by omega⟩
      rw [List.append_assoc]
      exact First.manyCons ft (fts m (by omega))

/-! ## Items of `case` -/

variable (A Bs N) in
structure MGC (t : CaseGItem) (c : SGCase) : Prop where
  vals : ∀ l, evGCases A Bs N (t :: l) = c.values A Bs N ++ evGCases A Bs N l
  dflt : ∀ l, evGDefault A Bs N (t :: l) = (c.default A Bs N <|> evGDefault A Bs N l)
  ok : ∀ l, c.Ok → okGCases l → okGCases (t :: l)
  isDflt : isGDefault t = c.isDflt

theorem gcaseItem_first {M n : Nat} {H : P GItem} (hF : GoodG A Bs N H n) {c : SGCase} {w : List STok} (h : c.Toks w) (hk : w.length ≤ n) (hM : w.length < M)
    {R : List STok} (hR : SEnd true R) : ∃ t, MGC A Bs N t c ∧ First None' (caseGenerateItem (env B M) H) (w ++ R) t R := by
  cases c with
  | exprs e l s =>
    rw [SGCase.Toks] at h
    obtain ⟨u, _, rfl, hu, v, _, rfl, hv, _, z, rfl, ⟨x, rfl, hx⟩, hz⟩ := h
    simp only [List.length_append, List.length_cons, List.length_nil] at hk hM
    obtain ⟨ts, ht, ft⟩ := commas_first (D := None') (p := (env B M).expression 0) (T := SExp.Toks) (M := ME A) (N := M) (Rst := CommaColon)
      (fun a u R h hN hR => exp_first (A := A) (B := B) h hN hR.sep) (fun z R hz => ⟨z, R, rfl, .inl hz⟩) (fun r h => h.elim) e l u v (x :: (z ++ R)) hu
      (exps_rest l v hv) (by simp only [List.length_append]; omega) ⟨x, _, rfl, .inr hx⟩ (tok_neg (by rw [hx]; decide) _)
    obtain ⟨t, hs, fs⟩ := hF s z hz (by omega) R hR.weak
    refine ⟨.exprs ts t, ⟨?_, ?_, ?_, rfl⟩, ?_⟩
    · intro l'
      rw [evGCases, SGCase.values]
      congr 1
      exact all2_map (fun a b h => by rw [h.ev, hs.ev]) ht
    · intro l'; rw [evGDefault, SGCase.default]; rfl
    · intro l' h1 h2
      rw [SGCase.Ok] at h1
      rw [okGCases]
      refine ⟨all2_all (q := SExp.Ok) (fun a b h => h.ok) ht ?_, hs.ok h1.2.2.1, by rw [hs.one]; exact h1.2.2.2, h2⟩
      intro b hb
      rcases List.mem_cons.1 hb with rfl | hb
      · exact h1.1
      · exact expsOk_all h1.2.1 b hb
    · simp only [List.append_assoc, List.cons_append, List.nil_append] at ft ⊢
      exact First.orN (bind_nil (tok_ne (exp_ne hu rfl _))) (First.bindH ft (First.bindH (First.tok hx _) (First.bindH fs (First.ret _ _))))
  | dflt colon s =>
    have key : ∀ {t : GItem}, MG A Bs N t s → MGC A Bs N (.dflt t) (.dflt colon s) := fun hs => by
      refine ⟨?_, ?_, ?_, rfl⟩
      · intro l'; rw [evGCases, SGCase.values]; rfl
      · intro l'; rw [evGDefault, SGCase.default, hs.ev]; rfl
      · intro l' h1 h2; rw [SGCase.Ok] at h1; rw [okGCases]; exact ⟨hs.ok h1.1, by rw [hs.one]; exact h1.2, h2⟩
    cases colon with
    | true =>
      rw [SGCase.Toks] at h
      obtain ⟨_, _, rfl, ⟨x, rfl, hx⟩, _, z, rfl, ⟨y, rfl, hy⟩, hz⟩ := h
      simp only [List.length_append, List.length_cons, List.length_nil] at hk hM
      obtain ⟨t, hs, fs⟩ := hF s z hz (by omega) R hR.weak
      exact ⟨.dflt t, key hs, First.orL (First.bindH (First.tok hx _) (First.bindH (First.some (First.tok hy _)) (First.bindH fs (First.ret _ _))))⟩
    | false =>
      rw [SGCase.Toks] at h
      obtain ⟨_, z, rfl, ⟨x, rfl, hx⟩, hz⟩ := h
      simp only [List.length_append, List.length_cons, List.length_nil] at hk hM
      obtain ⟨t, hs, fs⟩ := hF s z hz (by omega) R hR.weak
      exact ⟨.dflt t, key hs, First.orL (First.bindH (First.tok hx _) (First.bindH (First.noneE (tok_ne (gitem_ne hz rfl rfl R))) (First.bindH fs (First.ret _ _))))⟩

/-- An item of a `case` begins with none of these. -/
theorem gcase_ne {c : SGCase} {w : List STok} (h : c.Toks w) {t : ST} (ht : eNo t = true) (hd : t ≠ .KW_DEFAULT) (R : List STok) :
    ∀ y s, w ++ R = y :: s → y.ty ≠ t := by
  cases c with
  | exprs e l s =>
    rw [SGCase.Toks] at h
    obtain ⟨u, _, rfl, hu, -⟩ := h
    rw [List.append_assoc]; exact exp_ne hu ht _
  | dflt colon s =>
    cases colon <;> rw [SGCase.Toks] at h <;> obtain ⟨_, _, rfl, ⟨x, rfl, hx⟩, -⟩ := h <;> rintro _ _ ⟨⟩ <;> rw [hx] <;> exact hd.symm

theorem gcase_nonempty {c : SGCase} {w : List STok} (h : c.Toks w) : w ≠ [] := by
  cases c with
  | exprs e l s =>
    rw [SGCase.Toks] at h
    obtain ⟨u, _, rfl, hu, _, _, rfl, -, _, _, rfl, ⟨x, rfl, -⟩, -⟩ := h
    simp
  | dflt colon s =>
    cases colon <;> rw [SGCase.Toks] at h <;> obtain ⟨_, _, rfl, ⟨x, rfl, hx⟩, -⟩ := h <;> simp

theorem gcases_send {o : Bool} {l : List SGCase} {v : List STok} (h : gcasesToks l v) {y : STok} (hy : y.ty = .KW_ENDCASE) (R : List STok) : SEnd o (v ++ y :: R) := by
  cases l with
  | nil => rw [gcasesToks, Spec.SvLrm.Empty] at h; subst h; exact .of hy _ (by decide)
  | cons c l =>
    rw [gcasesToks] at h
    obtain ⟨u, v, rfl, hu, -⟩ := h
    rw [List.append_assoc]
    exact fun y s e => ⟨gcase_ne hu rfl (by decide) _ y s e, fun _ => gcase_ne hu rfl (by decide) _ y s e⟩

theorem gcases_first {M n : Nat} {H : P GItem} (hF : GoodG A Bs N H n) {z : STok} (hz : z.ty = .KW_ENDCASE) (R : List STok) :
    ∀ (l : List SGCase) (v : List STok), gcasesToks l v → v.length ≤ n → v.length < M →
    ∃ ts, (evGCases A Bs N ts = gcasesValues A Bs N l ∧ evGDefault A Bs N ts = gcasesDefault A Bs N l ∧ (gcasesOk l → okGCases ts) ∧
      (ts.filter isGDefault).length = (l.filter SGCase.isDflt).length) ∧
    ∀ m, v.length ≤ m → First None' (manyN (caseGenerateItem (env B M) H) m) (v ++ z :: R) ts (z :: R)
  | [], v, h, _, _ => by
    rw [gcasesToks, Spec.SvLrm.Empty] at h; subst h
    refine ⟨[], ⟨rfl, rfl, fun _ => trivial, rfl⟩, fun m _ => First.of_eq (manyN_stop ?_ m)⟩
    have h2 : P.sepBy .COMMA ((env B M).expression 0) (z :: R) = [] := bind_nil ((expression_eNo B M 0).cons (by rw [hz]; rfl))
    show (tok .KW_DEFAULT >>= fun _ => _) _ ++ (P.sepBy .COMMA ((env B M).expression 0) >>= fun _ => _) _ = []
    rw [List.nil_append, bind_nil (tok_neg (by rw [hz]; decide) R), bind_nil h2]; rfl
  | c :: l, v, h, hk, hM => by
    rw [gcasesToks] at h
    obtain ⟨u, v, rfl, hu, hv⟩ := h
    have hne := gcase_nonempty hu
    simp only [List.length_append] at hk hM
    obtain ⟨t, ht, ft⟩ := gcaseItem_first (B := B) (M := M) hF hu (by omega) (by omega) (gcases_send hv hz R)
    obtain ⟨ts, ⟨h1, h2, h3, h4⟩, fts⟩ := gcases_first (M := M) hF hz R l v hv (by omega) (by omega)
    refine ⟨t :: ts, ⟨?_, ?_, ?_, ?_⟩, ?_⟩
    · rw [ht.vals, gcasesValues, h1]
    · rw [ht.dflt, gcasesDefault, h2]
    · intro h; rw [gcasesOk] at h; exact ht.ok _ h.1 (h3 h.2)
    · rw [List.filter_cons, List.filter_cons, ht.isDflt]; split <;> simp [h4]
    · intro m hm
      have : u.length ≠ 0 := by simpa using hne
      simp only [List.length_append] at hm
      obtain ⟨m, rfl⟩ : ∃ j, m = j + 1 := ⟨m - 1, by omega⟩
      rw [List.append_assoc]
      exact First.manyCons ft (fts m (by omega))

theorem gelse_none {H : P GItem} {R : List STok} (hR : ∀ y s, R = y :: s → y.ty ≠ .KW_ELSE) : First None' (elseGenerate H) R none R := by
  refine First.orN (bind_nil (tok_ne hR)) (First.bindH (a := ()) (r1 := R) (First.of_eq ?_) (First.ret _ _))
  cases R with
  | nil => rfl
  | cons y s => show (if _ then _ else _) = _; rw [if_neg (hR y s rfl)]

/-! ## Items -/

theorem gitem_first {M m n : Nat} (hm : m + 1 < M) (hn : n ≤ m) (hF : GoodG A Bs N (generateItem C G (env B M) (statement B C (env B M) (m + 1)) n) n) :
    GoodG A Bs N (generateItem C G (env B M) (statement B C (env B M) (m + 1)) (n + 1)) (n + 1) := by
  intro g w h hk R hR
  show ∃ t, MG A Bs N t g ∧ First None' (generateItemRule C G (env B M) (statement B C (env B M) (m + 1)) (generateItem C G (env B M) (statement B C (env B M) (m + 1)) n)) (w ++ R) t R
  cases g with
  | semi =>
    rw [SItem.Toks] at h
    obtain ⟨x, rfl, hx⟩ := h
    refine ⟨.item .semi, ⟨?_, fun _ => ?_, rfl, rfl, (fun _ _ => ⟨_, rfl, by simp⟩), rfl⟩, gi_semi (by rw [hx]; rfl) ?_⟩
    · rw [evGItem, evGenItem, SItem.eval]
    · rw [okGItem, okGenItem]; trivial
    · refine First.bindH (a := none) (First.noneE ?_) (First.bindH (First.tok hx _) (First.ret _ _))
      show (G.defaultClocking >>= fun _ => _) _ ++ ((tok .KW_LOCALPARAM >>= fun _ => _) _ ++ (tok .KW_PARAMETER >>= fun _ => _) _) = []
      rw [bind_nil (G.default_no.2 _ _ (by rw [hx]; decide)), bind_nil (tok_neg (by rw [hx]; decide) _), bind_nil (tok_neg (by rw [hx]; decide) _)]; rfl
  | vars k r a l =>
    obtain ⟨t, ts, ⟨h1, h2⟩, ht, ft⟩ := vars_first (A := A) (B := B) (C := C) h (M := M) (by omega) R
    have hn : ts.map (·.name) = (a :: l).map Prod.fst := all2_map (fun a b h => h.name) ht
    rw [SItem.Toks] at h
    obtain ⟨_, _, rfl, ⟨x, rfl, hx, -⟩, -⟩ := h
    refine ⟨.item (.data (.vars false none (some (.type t)) ts)), ⟨?_, fun h => ?_, rfl, ?_, (fun _ _ => ⟨_, rfl, by simp⟩), ?_⟩, gi_data (by rw [hx]; cases k <;> rfl) ft⟩
    · rw [evGItem, evGenItem, SItem.eval, evDataDecl, List.map_map]
      refine all2_map (fun a b h => ?_) ht
      simp only [Function.comp, evVarDecl, evType, h.name, h.dims, evVDims, h.ev, h1, isStatic]
    · rw [SItem.Ok] at h; rw [okGItem, okGenItem]
      refine ⟨all2_all (q := fun x : Ident × Option SExp => okIdent x.1 ∧ ∀ e, x.2 = some e → e.Ok) (p := okVarDecl (some (.type t)))
        (fun a b h' h'' => ⟨by rw [h'.name]; exact h''.1, by rw [h'.dims]; trivial, h'.ok h''.2, h2 h.1, .inr (by rw [h'.dims]; rfl)⟩) ht h.2, ?_⟩
      cases ht; simp
    · cases ht with
      | cons _ h2 => cases h2 <;> rfl
    · rw [gItemNames, genItemNames, dataNames, SItem.names, hn]
  | atoms k a l =>
    obtain ⟨ts, ht, ft⟩ := atoms_first (A := A) (B := B) (C := C) h (M := M) (by omega) R
    have hn : ts.map (·.name) = (a :: l).map Prod.fst := all2_map (fun a b h => h.name) ht
    rw [SItem.Toks] at h
    obtain ⟨_, _, rfl, ⟨x, rfl, hx, -⟩, -⟩ := h
    refine ⟨.item (.data (.vars false none (some (.type (numType k))) ts)), ⟨?_, fun h => ?_, rfl, ?_, (fun _ _ => ⟨_, rfl, by simp⟩), ?_⟩, gi_data (by rw [hx]; cases k <;> rfl) ft⟩
    · rw [evGItem, evGenItem, SItem.eval, evDataDecl, List.map_map]
      refine all2_map (fun a b h => ?_) ht
      simp only [Function.comp, evVarDecl, evType, h.name, h.dims, evVDims, h.ev, numType_ev, isStatic]
    · rw [SItem.Ok] at h; rw [okGItem, okGenItem]
      refine ⟨all2_all (q := fun x : Ident × Option SExp => okIdent x.1 ∧ ∀ e, x.2 = some e → e.Ok) (p := okVarDecl (some (.type (numType k))))
        (fun a b h' h'' => ⟨by rw [h'.name]; exact h''.1, by rw [h'.dims]; trivial, h'.ok h''.2, numType_ok k, .inr (by rw [h'.dims]; rfl)⟩) ht h, ?_⟩
      cases ht; simp
    · cases ht with
      | cons _ h2 => cases h2 <;> rfl
    · rw [gItemNames, genItemNames, dataNames, SItem.names, hn]
  | nets k r a l =>
    obtain ⟨t, ts, ⟨h1, h2⟩, ht, ft⟩ := nets_first (A := A) (Bs := Bs) (B := B) (G := G) h (M := M) (by omega) R
    have hn : ts.map (·.name) = (a :: l).map Prod.fst := all2_map (fun a b h => h.name) ht
    rw [SItem.Toks] at h
    obtain ⟨_, _, rfl, ⟨x, rfl, hx, -⟩, -⟩ := h
    refine ⟨.item (.net (.net k.text false t ts)), ⟨?_, fun h => ?_, rfl, ?_, (fun _ _ => ⟨_, rfl, by simp⟩), ?_⟩, gi_net (by rw [hx]; cases k <;> rfl) ft⟩
    · rw [evGItem, evGenItem, SItem.eval, evNetDecl, List.map_map]
      refine all2_map (fun a b h => ?_) ht
      simp only [Function.comp, evNet, h.name, h.dims, evDims, h.ev, h1]
    · rw [SItem.Ok] at h; rw [okGItem, okGenItem]
      exact ⟨rfl, h2 h.1 h.2.1, all2_all (q := fun x : Ident × Option SExp => okIdent x.1 ∧ ∀ e, x.2 = some e → e.Ok)
        (p := fun n : NetAssign => okIdent n.name ∧ (∀ r ∈ n.dims, okARange r) ∧ okOptExp n.value ∧ (t = none → n.dims = []))
        (fun a b h' h'' => ⟨by rw [h'.name]; exact h''.1, by rw [h'.dims]; simp, h'.ok h''.2, fun _ => h'.dims⟩) ht h.2.2⟩
    · cases ht with
      | cons _ h2 => cases h2 <;> rfl
    · rw [gItemNames, genItemNames, netNames, SItem.names, hn]
  | local_ o a l =>
    obtain ⟨t, ts, ⟨h1, h2⟩, ht, ft⟩ := local_first (A := A) (Bs := Bs) (B := B) (G := G) h (M := M) (by omega) R
    have hn : ts.map (·.name) = (a :: l).map Prod.fst := all2_map (fun a b h => h.name) ht
    rw [SItem.Toks] at h
    obtain ⟨_, _, rfl, ⟨x, rfl, hx⟩, -⟩ := h
    refine ⟨.item (.localparam (.val t ts)), ⟨?_, fun h => ?_, rfl, ?_, (fun _ _ => ⟨_, rfl, by simp⟩), ?_⟩, gi_semi (by rw [hx]; rfl) ft⟩
    · rw [evGItem, evGenItem, SItem.eval, evParamDecl, List.map_map]
      refine all2_map (fun a b h => ?_) ht
      simp only [Function.comp, h.evLocal, h1]
    · rw [SItem.Ok] at h; rw [okGItem, okGenItem]
      exact ⟨all2_all (p := okParam) (q := fun a : Ident × SExp => okIdent a.1 ∧ a.2.Ok) (fun a b h => h.ok) ht h.2, h2 h.1⟩
    · cases ht with
      | cons _ h2 => cases h2 <;> rfl
    · rw [gItemNames, genItemNames, paramNames, SItem.names, hn]
  | assign a l =>
    obtain ⟨ts, ht, ft⟩ := cassign_first (A := A) (B := B) (G := G) h (M := M) (by omega) R
    rw [SItem.Toks] at h
    obtain ⟨_, _, rfl, ⟨x, rfl, hx⟩, -⟩ := h
    refine ⟨.item (.assign ts), ⟨?_, fun h => ?_, rfl, ?_, (fun _ _ => ⟨_, rfl, by simp⟩), rfl⟩, gi_assign (by rw [hx]; rfl) ft⟩
    · rw [evGItem, evGenItem, SItem.eval]
      exact all2_map (fun a b h => by rw [h.lv.ev, h.ex.ev]) ht
    · rw [SItem.Ok] at h; rw [okGItem, okGenItem]
      exact all2_all (q := fun x : SPrim × SExp => x.1.Ok ∧ x.2.Ok) (p := okVarAssign) (fun a b h h' => ⟨h.lv.ok h'.1, h.ex.ok h'.2⟩) ht h
    · cases ht with
      | cons _ h2 => cases h2 <;> rfl
  | genvar a l =>
    have ft := genvar_first h R
    rw [SItem.Toks] at h
    obtain ⟨_, _, rfl, ⟨x, rfl, hx⟩, -⟩ := h
    refine ⟨.item (.genvar (a :: l)), ⟨?_, fun h => ?_, rfl, ?_, (fun _ _ => ⟨_, rfl, by simp⟩), rfl⟩, gi_genvar (by rw [hx]; rfl) ft⟩
    · rw [evGItem, evGenItem, SItem.eval]
    · rw [SItem.Ok] at h; rw [okGItem, okGenItem]; exact h
    · cases l <;> rfl
  | initial s =>
    rw [SItem.Toks] at h
    obtain ⟨_, v, rfl, ⟨x, rfl, hx⟩, hv⟩ := h
    simp only [List.length_append, List.length_cons, List.length_nil] at hk
    obtain ⟨t, ht, ft⟩ := good_stm (A := A) (Bs := Bs) (B := B) (C := C) M (m + 1) hm s v hv (by omega) R hR
    refine ⟨.item (.initial t), ⟨?_, fun h => ?_, rfl, rfl, (fun _ _ => ⟨_, rfl, by simp⟩), rfl⟩, gi_initial (by rw [hx]; rfl) (First.bindH (First.tok hx _) (First.bindH ft (First.ret _ _)))⟩
    · rw [evGItem, evGenItem, SItem.eval, ht.ev]
    · rw [SItem.Ok] at h; rw [okGItem, okGenItem]; exact ⟨ht.ok h.1, by rw [ht.fork]; exact h.2⟩
  | always kw s =>
    rw [SItem.Toks] at h
    obtain ⟨hp, ha, _, v, rfl, ⟨x, rfl, hx⟩, hv⟩ := h
    simp only [List.length_append, List.length_cons, List.length_nil] at hk
    obtain ⟨t, ⟨h1, h2⟩, ft⟩ := always_first (A := A) (Bs := Bs) (N := N) (B := B) (C := C) (kw := kw) hm hp ha hv (by omega) hR
    refine ⟨.item (.always kw t), ⟨?_, fun h => ?_, rfl, rfl, (fun _ _ => ⟨_, rfl, by simp⟩), rfl⟩, gi_always (by rw [hx]; cases kw <;> rfl) (First.bindH (alwaysKw_first hx _) (First.bindH ft (First.ret _ _)))⟩
    · rw [evGItem, evGenItem, SItem.eval, h1]
    · rw [SItem.Ok] at h; rw [okGItem, okGenItem]; exact h2 h
  | alwaysAt kw e s =>
    rw [SItem.Toks] at h
    obtain ⟨_, v, rfl, ⟨x, rfl, hx⟩, hv⟩ := h
    simp only [List.length_append, List.length_cons, List.length_nil] at hk
    obtain ⟨te, tb, h1, h2, ft⟩ := eventStm_first (A := A) (Bs := Bs) (B := B) (C := C) hm hv (by omega) hR
    refine ⟨.item (.always kw _), ⟨?_, fun h => ?_, rfl, rfl, (fun _ _ => ⟨_, rfl, by simp⟩), rfl⟩, gi_always (by rw [hx]; cases kw <;> rfl) (First.bindH (alwaysKw_first hx _) (First.bindH ft (First.ret _ _)))⟩
    · rw [evGItem, evGenItem, SItem.eval, ← h1.ev, ← h2.ev]; cases kw <;> rfl
    · rw [SItem.Ok] at h; rw [okGItem, okGenItem]; exact ⟨h1.ok h.1, h2.ok h.2⟩
  | inst i ps a l =>
    obtain ⟨t, ⟨h1, h2, h3⟩, ft⟩ := inst_item (A := A) (Bs := Bs) (N := N) (B := B) (C := C) (G := G) (F := statement B C (env B M) (m + 1))
      (H := generateItem C G (env B M) (statement B C (env B M) (m + 1)) n) h (M := M) (by omega) R
    refine ⟨.item (.inst t), ⟨?_, fun h => ?_, rfl, ?_, (fun _ _ => ⟨_, rfl, by simp⟩), rfl⟩, ft⟩
    · rw [evGItem, evGenItem, h1]
    · rw [okGItem, okGenItem]; exact h2 h
    · show (t.insts.length == 1) = l.isEmpty
      rw [h3]; cases l <;> simp
  | ite c t =>
    rw [SItem.Toks] at h
    obtain ⟨_, _, rfl, ⟨x, rfl, hx⟩, u, v, rfl, hu, hv⟩ := h
    simp only [List.length_append, List.length_cons, List.length_nil] at hk
    obtain ⟨te, he, fe⟩ := parExpr_first (A := A) (B := B) hu (M := M) (by omega) (v ++ R)
    obtain ⟨ts, hs, fs⟩ := hF t v hv (by omega) R (SEnd.weak hR)
    simp only [List.append_assoc, List.cons_append, List.nil_append]
    refine ⟨.item (.if_ te ts), ⟨?_, fun h => ?_, rfl, rfl, (fun _ _ => ⟨_, rfl, by simp⟩), rfl⟩, gi_if (by rw [hx]; rfl) ?_⟩
    · rw [evGItem, evGenItem, SItem.eval, hs.ev, he.ev]
    · rw [SItem.Ok] at h; rw [okGItem, okGenItem]; exact ⟨he.ok h.1, hs.ok h.2⟩
    · exact First.bindH (First.tok hx _) (First.bindH fe (First.bindH fs (First.bindH (gelse_none fun y s e => (hR y s e).2 rfl) (First.ret _ _))))
  | iteElse c t f =>
    rw [SItem.Toks] at h
    obtain ⟨ho, _, _, rfl, ⟨x, rfl, hx⟩, u, _, rfl, hu, v, _, rfl, hv, _, z, rfl, ⟨y, rfl, hy⟩, hz⟩ := h
    simp only [List.length_append, List.length_cons, List.length_nil] at hk
    obtain ⟨te, he, fe⟩ := parExpr_first (A := A) (B := B) hu (M := M) (by omega) (v ++ y :: (z ++ R))
    obtain ⟨ts, hs, fs⟩ := hF t v hv (by omega) (y :: (z ++ R)) (by rw [ho]; rintro _ _ ⟨⟩; rw [hy]; exact ⟨by decide, by simp⟩)
    obtain ⟨tf, hf, ff⟩ := hF f z hz (by omega) R hR
    simp only [List.append_assoc, List.cons_append, List.nil_append]
    refine ⟨.item (.ifElse te ts tf), ⟨?_, fun h => ?_, rfl, rfl, (fun _ _ => ⟨_, rfl, by simp⟩), rfl⟩, gi_if (by rw [hx]; rfl) ?_⟩
    · rw [evGItem, evGenItem, SItem.eval, hs.ev, he.ev, hf.ev]
    · rw [SItem.Ok] at h; rw [okGItem, okGenItem]; exact ⟨he.ok h.1, hs.ok h.2.1, hf.ok h.2.2.1, by rw [hf.region]; exact h.2.2.2⟩
    · exact First.bindH (First.tok hx _) (First.bindH fe (First.bindH fs (First.bindH (a := some tf)
        (First.orL (First.bindH (First.tok hy _) (First.bindH ff (First.ret _ _)))) (First.ret _ _))))
  | case e c l =>
    rw [SItem.Toks] at h
    obtain ⟨_, _, rfl, ⟨x, rfl, hx⟩, p, _, rfl, hp, v, _, rfl, hv, q, _, rfl, hq, ⟨z, rfl, hz⟩⟩ := h
    simp only [List.length_append, List.length_cons, List.length_nil] at hk
    obtain ⟨te, he, fe⟩ := parExpr_first (A := A) (B := B) hp (M := M) (by omega) (v ++ (q ++ z :: R))
    obtain ⟨tc, hc, fc⟩ := gcaseItem_first (B := B) (M := M) hF hv (by omega) (by omega) (gcases_send hq hz R)
    obtain ⟨ts, ⟨h1, h2, h3, h4⟩, fts⟩ := gcases_first (B := B) (M := M) hF hz R l q hq (by omega) (by omega)
    simp only [List.append_assoc, List.cons_append, List.nil_append]
    refine ⟨.item (.case te (tc :: ts)), ⟨?_, fun h => ?_, rfl, rfl, (fun _ _ => ⟨_, rfl, by simp⟩), rfl⟩, gi_case (by rw [hx]; rfl) ?_⟩
    · rw [evGItem, evGenItem, SItem.eval, hc.vals, hc.dflt, h1, h2, he.ev]
    · rw [SItem.Ok] at h; rw [okGItem, okGenItem]
      refine ⟨he.ok h.1, hc.ok _ h.2.1 (h3 h.2.2.1), ?_⟩
      have := h.2.2.2
      rw [List.filter_cons] at this ⊢
      rw [hc.isDflt]
      split <;> rename_i h5 <;> simp only [h5, if_true, if_false, Bool.false_eq_true, List.length_cons] at this ⊢ <;> omega
    · refine First.bindH (First.tok hx _) (First.bindH fe (First.bindH (a := tc :: ts) (r1 := z :: R) ?_ (First.bindH (First.tok hz _) (First.ret _ _))))
      exact First.bindH fc (First.bindH (First.many (fts _ (by simp))) (First.ret _ _))
  | for_ g i v c s b =>
    rw [SItem.Toks] at h
    obtain ⟨_, _, rfl, ⟨x, rfl, hx⟩, _, _, rfl, ⟨o, rfl, ho⟩, wg, _, rfl, hg, _, _, rfl, ⟨y, rfl, hy⟩, _, _, rfl, ⟨eq, rfl, heq⟩, wv, _, rfl, hv, _, _, rfl, ⟨z1, rfl, hz1⟩,
      wc, _, rfl, hc, _, _, rfl, ⟨z2, rfl, hz2⟩, ws, _, rfl, hs, _, wb, rfl, ⟨z3, rfl, hz3⟩, hb⟩ := h
    simp only [List.length_append, List.length_cons, List.length_nil] at hk
    obtain ⟨ti, mi, fi⟩ := ginit_first (A := A) (B := B) hg hy heq hv hz1 (M := M) (by omega) (wc ++ z2 :: (ws ++ z3 :: (wb ++ R)))
    obtain ⟨tc, mc, fc⟩ := exp_first (A := A) (B := B) hc (M := M) (by omega) (R := z2 :: (ws ++ z3 :: (wb ++ R))) (.of hz2 _ rfl rfl)
    obtain ⟨ts, ms, fs⟩ := gstep_first (A := A) (B := B) hs (M := M) (by omega) hz3 (wb ++ R)
    obtain ⟨tb, mb, fb⟩ := hF b wb hb (by omega) R hR
    simp only [List.append_assoc, List.cons_append, List.nil_append]
    refine ⟨.item (.loop ti tc ts tb), ⟨?_, fun h => ?_, rfl, rfl, (fun _ _ => ⟨_, rfl, by simp⟩), rfl⟩, gi_for (by rw [hx]; rfl) ?_⟩
    · rw [evGItem, evGenItem, SItem.eval, mi.genvar, mi.name, mi.value.ev, mc.ev, ms.ev, mb.ev]
    · rw [SItem.Ok] at h; rw [okGItem, okGenItem]
      exact ⟨⟨by rw [mi.name]; exact h.1, mi.value.ok h.2.1⟩, mc.ok h.2.2.1, ms.ok h.2.2.2.1, mb.ok h.2.2.2.2⟩
    · exact First.bindH (First.tok hx _) (First.bindH (First.tok ho _) (First.bindH fi (First.bindH (First.tok hz1 _) (First.bindH fc (First.bindH (First.tok hz2 _)
        (First.bindH fs (First.bindH (First.tok hz3 _) (First.bindH fb (First.ret _ _)))))))))
  | block nm l e =>
    rw [SItem.Toks] at h
    obtain ⟨_, _, rfl, ⟨x, rfl, hx⟩, u, _, rfl, hu, v, _, rfl, hv, _, z, rfl, ⟨y, rfl, hy⟩, hz⟩ := h
    simp only [List.length_append, List.length_cons, List.length_nil] at hk
    have hb : GEnd (y :: (z ++ R)) := ⟨y, _, rfl, by rw [hy]; rfl, by rw [hy]; decide, by rw [hy]; decide⟩
    obtain ⟨ts, ⟨hev, hok, -⟩, fts⟩ := items_first hF l v hv (by omega) _ hb
    simp only [List.append_assoc, List.cons_append, List.nil_append]
    refine ⟨.block none nm ts e, ⟨?_, fun h => ?_, rfl, rfl, (fun h _ => by cases h), rfl⟩, gi_block (by rw [hx]; rfl) ?_⟩
    · rw [evGItem, SItem.eval, hev]; cases nm <;> rfl
    · rw [SItem.Ok] at h; rw [okGItem]
      exact ⟨hok h.2.2.2, (fun x hx => by cases hx), h.1, h.2.1, fun _ => h.2.2.1⟩
    · refine First.bindH (a := none) (First.noneE (bind_nil (identifier_no.cons (by rw [hx]; rfl)))) (First.bindH (First.tok hx _)
        (First.bindH (blockLabel_first hu fun y s e => (items_send (o := true) hv hb y s e).1) (First.bindH (First.many (fts _ (by simp))) (First.bindH (First.tok hy _)
        (First.bindH (blockLabel_first hz fun y s e => (hR y s e).1) (First.ret _ _))))))
  | region l =>
    rw [SItem.Toks] at h
    obtain ⟨_, _, rfl, ⟨x, rfl, hx⟩, v, _, rfl, hv, ⟨y, rfl, hy⟩⟩ := h
    simp only [List.length_append, List.length_cons, List.length_nil] at hk
    have hb : GEnd (y :: R) := ⟨y, _, rfl, by rw [hy]; rfl, by rw [hy]; decide, by rw [hy]; decide⟩
    obtain ⟨ts, ⟨hev, hok, hnm⟩, fts⟩ := items_first hF l v hv (by omega) _ hb
    simp only [List.append_assoc, List.cons_append, List.nil_append]
    refine ⟨.region ts, ⟨?_, fun h => ?_, rfl, rfl, (fun _ h => by cases h), hnm⟩, gi_region (by rw [hx]; rfl) ?_⟩
    · rw [evGItem, SItem.eval, hev]
    · rw [SItem.Ok] at h; rw [okGItem]; exact hok h
    · exact First.bindH (First.tok hx _) (First.bindH (First.many (fts _ (by simp))) (First.bindH (First.tok hy _) (First.ret _ _)))

theorem good_item {M m : Nat} (hm : m + 1 < M) : ∀ n, n ≤ m + 1 → GoodG A Bs N (generateItem C G (env B M) (statement B C (env B M) (m + 1)) n) n
  | 0, _ => fun s w h hk R _ => by
    have := gitem_nonempty h
    simp only [Nat.le_zero, List.length_eq_zero_iff] at hk
    exact (this hk).elim
  | n + 1, hn => gitem_first hm (by omega) (good_item hm n (by omega))

end Verif.Sv
