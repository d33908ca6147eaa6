import Verif.SvParRead
/-!
# The parse of SystemVerilog modules
-/
namespace Verif.Sv
open P Verif.Spec.SvLrm Verif.Spec.Sv

variable {V S W : Type} {A : Alg V} {Bs : SAlg V S} {N : MAlg V S W} {B : Rules} {C : StmRules} {G : ItemRules} {D : ModRules}

/-! ## Items -/

theorem block_mem {H : P GItem} {ts : List STok} {x : GItem × List STok} (h : x ∈ generateBlock H ts) : ∃ l n b e, x.1 = .block l n b e := by
  obtain ⟨l, _, -, h⟩ := mem_bind.1 h
  obtain ⟨_, _, -, h⟩ := mem_bind.1 h
  obtain ⟨n, _, -, h⟩ := mem_bind.1 h
  obtain ⟨b, _, -, h⟩ := mem_bind.1 h
  obtain ⟨_, _, -, h⟩ := mem_bind.1 h
  obtain ⟨e, _, -, h⟩ := mem_bind.1 h
  rw [mem_pure] at h
  subst h
  exact ⟨_, _, _, _, rfl⟩

/-- What the rule `generate_item` reads as an item is one of `module_or_generate_item`. -/
theorem mog_first {E : Env} {F : P Stm} {H : P GItem} {x : STok} {ts R : List STok} {i : GenItem} (hx : x.ty ≠ .LPAREN) (h : First None' (generateItemRule C G E F H) (x :: ts) (.item i) R) :
    First None' (moduleOrGenerateItem C G E F H) (x :: ts) i R := by
  obtain ⟨pre, post, e, h⟩ := h
  cases pre with
  | cons a l => exact (h a (by simp)).elim
  | nil =>
    cases hm : moduleOrGenerateItem C G E F H (x :: ts) with
    | nil =>
      have hmem : ((GItem.item i, R) : GItem × List STok) ∈ generateItemRule C G E F H (x :: ts) := by rw [e]; simp
      obtain ⟨p, hp, hmem⟩ := mem_alts.1 hmem
      simp only [List.mem_cons, List.not_mem_nil, or_false] at hp
      rcases hp with rfl | rfl | rfl | rfl
      · obtain ⟨a, r, h1, h2⟩ := mem_bind.1 hmem
        rw [attributes_ne hx, List.mem_singleton] at h1; cases h1
        rcases mem_or.1 h2 with h2 | h2
        · exact (nil_mem h2 (bind_nil hm)).elim
        · obtain ⟨_, _, -, h3⟩ := mem_bind.1 h2
          rw [mem_pure] at h3; cases h3
      · obtain ⟨_, _, -, h3⟩ := mem_bind.1 hmem
        obtain ⟨_, _, -, h3⟩ := mem_bind.1 h3
        rw [mem_pure] at h3; cases h3
      · obtain ⟨_, _, -, h3⟩ := mem_bind.1 hmem
        rw [mem_pure] at h3; cases h3
      · obtain ⟨_, _, _, _, h3⟩ := block_mem hmem
        cases h3
    | cons a l =>
      refine ⟨[], l, ?_, by simp⟩
      rw [List.nil_append]
      have e2 : generateItemRule C G E F H (x :: ts) = (attributes E >>= fun _ => P.or (moduleOrGenerateItem C G E F H >>= fun i => pure (GItem.item i))
        (G.externTf >>= fun _ => pure .externTf)) (x :: ts) ++ _ := rfl
      rw [e2, bind_apply, attributes_ne hx] at e
      simp only [List.flatMap_cons, List.flatMap_nil, List.append_nil, or_apply, bind_apply, hm, pure_apply, List.cons_append, List.nil_append, List.cons.injEq, Prod.mk.injEq,
        GItem.item.injEq] at e
      rw [hm]
      obtain ⟨⟨h1, h2⟩, -⟩ := e
      rw [← h1, ← h2]

variable (A Bs N) in
/-- A tree of an item of a module means the same as the text. -/
structure MMi (t : ModItem) (g : SModItem) : Prop where
  ev : ∀ h l, evModItems A Bs N h (t :: l) = g.eval A Bs N h ++ evModItems A Bs N h l
  ok : ∀ h, g.Ok h → ∀ l, okModItems h l → okModItems h (t :: l)
  names : modItemNames t = g.names
  params : ∀ h l, evBodyParams A Bs h (t :: l) = g.generics A Bs h ++ evBodyParams A Bs h l
  ports : ∀ l, bodyPortNames (t :: l) = g.portNames ++ bodyPortNames l
  decls : ∀ l, evBodyPorts A Bs (t :: l) = g.decls A Bs ++ evBodyPorts A Bs l

theorem moduleItem_first {M n : Nat} (hm : n + 1 < M) {g : SItem} {w : List STok} (hb : g.isBlock = false) (h : g.Toks w) (hk : w.length ≤ n + 1) {R : List STok} (hR : SEnd g.openIf R) :
    ∃ t, MMi A Bs N t (.item g) ∧ First None' (moduleItem C G (env B M) (statement B C (env B M) (n + 1)) (generateItem C G (env B M) (statement B C (env B M) (n + 1)) n)) (w ++ R) t R := by
  have hF := good_item (A := A) (Bs := Bs) (N := N) (B := B) (C := C) (G := G) hm
  cases hr : g.isRegion with
  | false =>
    obtain ⟨t, ht, ft⟩ := hF (n + 1) (Nat.le_refl _) g w h hk R hR
    obtain ⟨x, v, rfl, hx⟩ := gitem_head h
    obtain ⟨i, rfl, hi⟩ := ht.shape hb hr
    have hx1 : x.ty ≠ .LPAREN := by
      intro e; rw [e] at hx; rcases hx with hx | hx
      · cases hx
      · exact absurd hx.1 (by decide)
    have fm : First None' (moduleOrGenerateItem C G (env B M) (statement B C (env B M) (n + 1)) (generateItem C G (env B M) (statement B C (env B M) (n + 1)) n)) (x :: (v ++ R)) i R := mog_first hx1 ft
    have hx2 : x.ty ≠ .KW_GENERATE := by
      intro e
      obtain ⟨pre, post, e2, -⟩ := fm
      rw [(mog_later B C G M _ _).cons (by rw [e]; rfl)] at e2
      simp at e2
    have ev := ht.ev
    have nm := ht.names
    rw [evGItem] at ev
    rw [gItemNames] at nm
    refine ⟨.item i, ⟨fun _ l => ?_, fun _ h l hl => ?_, nm, fun _ l => ?_, fun l => rfl, fun l => rfl⟩, ?_⟩
    · rw [SModItem.eval, ← ev]; cases i <;> first | exact (hi _ rfl).elim | rw [evModItems]; simp
    · have := ht.ok h
      rw [okGItem] at this
      cases i <;> first | exact (hi _ rfl).elim | (rw [okModItems]; exact ⟨this, hl⟩; simp)
    · cases i <;> first | exact (hi _ rfl).elim | rfl
    · exact First.orN (bind_nil (bind_nil (tok_neg hx2 _))) (First.orL (First.bindH (a := []) (First.of_eq (attributes_ne hx1)) (First.orL (First.map (f := ModItem.item) fm))))
  | true =>
    obtain ⟨l, rfl⟩ : ∃ l, g = .region l := by cases g <;> first | exact ⟨_, rfl⟩ | cases hr
    rw [SItem.Toks] at h
    obtain ⟨_, _, rfl, ⟨x, rfl, hx⟩, v, _, rfl, hv, ⟨y, rfl, hy⟩⟩ := h
    simp only [List.length_append, List.length_cons, List.length_nil] at hk
    have hb : GEnd (y :: R) := ⟨y, _, rfl, by rw [hy]; rfl, by rw [hy]; decide, by rw [hy]; decide⟩
    obtain ⟨ts, ⟨hev, hok, hnm⟩, fts⟩ := items_first (hF n (by omega)) l v hv (by omega) _ hb
    simp only [List.append_assoc, List.cons_append, List.nil_append]
    refine ⟨.region ts, ⟨fun _ l => ?_, fun _ h l hl => ?_, hnm, fun _ l => rfl, fun l => rfl, fun l => rfl⟩, ?_⟩
    · rw [evModItems, SModItem.eval, SItem.eval, hev]
    · rw [SModItem.Ok, SItem.Ok] at h; rw [okModItems]; exact ⟨hok h, hl⟩
    · exact First.orL (First.map (f := ModItem.region) (First.bindH (First.tok hx _) (First.bindH (First.many (fts _ (by simp))) (First.bindH (First.tok hy _) (First.ret _ _)))))

/-- The last alternative. -/
theorem moduleItem_port {M : Nat} {F : P Stm} {H : P GItem} {y : STok} (hy : y.ty = .KW_INPUT ∨ y.ty = .KW_OUTPUT ∨ y.ty = .KW_INOUT) {R R' : List STok} {t : ModItem}
    (h : First None' (nonansiPortDeclaration (env B M) >>= fun d => tok .SEMI >>= fun _ => (pure (.port d) : P ModItem)) (y :: R) t R') : First None' (moduleItem C G (env B M) F H) (y :: R) t R' := by
  have h1 : generateRegion H (y :: R) = [] := bind_nil (tok_neg (by rcases hy with h | h | h <;> rw [h] <;> decide) R)
  have h2 : moduleOrGenerateItem C G (env B M) F H (y :: R) = [] := (mog_later B C G M F H).cons (by rcases hy with h | h | h <;> rw [h] <;> rfl)
  have h3 : G.specparam (y :: R) = [] := G.specparam_no.2 _ _ (by rcases hy with h | h | h <;> rw [h] <;> simp)
  have h4 : G.other (y :: R) = [] := G.other_no.2 _ _ (by rcases hy with h | h | h <;> rw [h] <;> simp)
  refine First.orN (bind_nil h1) (First.orN ?_ (First.orN h4 h))
  refine List.eq_nil_iff_forall_not_mem.2 fun z hz => ?_
  obtain ⟨a, r, h5, h6⟩ := mem_bind.1 hz
  rw [attributes_ne (by rcases hy with h | h | h <;> rw [h] <;> decide), List.mem_singleton] at h5; cases h5
  rcases mem_or.1 h6 with h6 | h6
  · exact nil_mem h6 (bind_nil h2)
  · exact nil_mem h6 (bind_nil h3)

theorem modulePorts_first {M : Nat} {F : P Stm} {H : P GItem} {o : SIo} {t : SPortTy} {a : Ident} {l : List Ident} {w : List STok} (h : (SModItem.ports o t a l).Toks w)
    (hk : w.length < M) (R : List STok) : ∃ t', MMi A Bs N t' (.ports o t a l) ∧ First None' (moduleItem C G (env B M) F H) (w ++ R) t' R := by
  obtain ⟨ty, c, mt, hc, ft⟩ := portDecl_first (A := A) (Bs := Bs) (B := B) h hk R
  obtain ⟨_, _, rfl, ⟨x, rfl, hx⟩, -⟩ := h
  refine ⟨.port (ioDecl o ty ((a :: l).map fun i => ⟨i, [], none⟩)), ⟨fun h l => ?_, fun h ok l' hl => ?_, rfl, fun h l => rfl, fun l' => ?_, fun l' => ?_⟩, ?_⟩
  · rw [evModItems, SModItem.eval, List.nil_append]
  · obtain ⟨o1, o2⟩ := ok
    rw [okModItems]
    refine ⟨⟨by cases o <;> simp [ioDecl, names], fun v hv => ?_⟩, hl⟩
    have hv : v ∈ (a :: l).map fun i => (⟨i, [], none⟩ : VarId) := by cases o <;> exact hv
    obtain ⟨i, hi, rfl⟩ := List.mem_map.1 hv
    refine ⟨o2 i hi, trivial, trivial, ?_⟩
    cases ty with
    | none => cases o <;> rfl
    | some ty =>
      have := mt.2.2.1 o1
      have hw := mt.2.1
      cases o with
      | inout => cases ty <;> first | exact this | cases hw
      | _ => exact this
  · cases o <;> simp [bodyPortNames, ioDecl, names, SModItem.portNames, Function.comp_def]
  · have e : evDeclType A Bs (ioDecl o ty ((a :: l).map fun i => ⟨i, [], none⟩)) = (t.open_ A Bs, false) := by
      cases ty with
      | none => cases mt; cases o <;> rfl
      | some ty =>
        have := mt.1
        have hw := mt.2.1
        rw [mt.2.2.2]
        cases o with
        | inout => cases ty <;> first | exact this | cases hw
        | _ => exact this
    rw [evBodyPorts, evNonansiDecl, e]
    cases o <;> simp [ioDecl, names, declDir, SModItem.decls, evVDims, dirOf, ioDir]
  · simp only [List.cons_append, List.nil_append] at ft ⊢
    exact moduleItem_port (by rw [hx]; cases o <;> simp [ioDir, dirTy]) (First.bindH ft (First.bindH (First.tok hc _) (First.ret _ _)))

theorem moduleItem_end {M : Nat} {F : P Stm} {H : P GItem} {y : STok} (hy : y.ty = .KW_ENDMODULE) (R : List STok) : moduleItem C G (env B M) F H (y :: R) = [] := by
  have h0 : ∀ {p : P NonansiDecl}, p = nonansiPortDeclaration (env B M) → p (y :: R) = [] := by
    rintro _ rfl
    refine List.eq_nil_iff_forall_not_mem.2 fun z hz => ?_
    obtain ⟨a, r, h5, h6⟩ := mem_bind.1 hz
    rw [attributes_ne (by rw [hy]; decide), List.mem_singleton] at h5; cases h5
    obtain ⟨p, hp, hz⟩ := mem_alts.1 h6
    simp only [List.mem_cons, List.not_mem_nil, or_false] at hp
    rcases hp with rfl | rfl | rfl | rfl | rfl
    · exact nil_mem hz (bind_nil (tok_neg (by rw [hy]; decide) R))
    · exact nil_mem hz (bind_nil (tok_neg (by rw [hy]; decide) R))
    · exact nil_mem hz (bind_nil (tok_neg (by rw [hy]; decide) R))
    · exact nil_mem hz (bind_nil (identifier_no.cons (by rw [hy]; rfl)))
    · exact nil_mem hz (bind_nil (tok_neg (by rw [hy]; decide) R))
  have h1 : generateRegion H (y :: R) = [] := bind_nil (tok_neg (by rw [hy]; decide) R)
  have h2 : moduleOrGenerateItem C G (env B M) F H (y :: R) = [] := (mog_later B C G M F H).cons (by rw [hy]; rfl)
  have h3 : G.specparam (y :: R) = [] := G.specparam_no.2 _ _ (by rw [hy]; simp)
  have h4 : G.other (y :: R) = [] := G.other_no.2 _ _ (by rw [hy]; simp)
  refine List.eq_nil_iff_forall_not_mem.2 fun z hz => ?_
  obtain ⟨p, hp, hz⟩ := mem_alts.1 hz
  simp only [List.mem_cons, List.not_mem_nil, or_false] at hp
  rcases hp with rfl | rfl | rfl | rfl
  · exact nil_mem hz (bind_nil h1)
  · obtain ⟨a, r, h5, h6⟩ := mem_bind.1 hz
    rw [attributes_ne (by rw [hy]; decide), List.mem_singleton] at h5; cases h5
    rcases mem_or.1 h6 with h6 | h6
    · exact nil_mem h6 (bind_nil h2)
    · exact nil_mem h6 (bind_nil h3)
  · exact nil_mem hz h4
  · exact nil_mem hz (bind_nil (h0 rfl))

/-- A parameter in the body of a module. -/
theorem modulePar_first {M n : Nat} (hm : n + 1 < M) {o : SParTy} {a : Ident × SExp} {l : List (Ident × SExp)} {w : List STok} (h : (SModItem.par o a l).Toks w)
    (hk : w.length ≤ n + 1) (R : List STok) :
    ∃ t, MMi A Bs N t (.par o a l) ∧ First None' (moduleItem C G (env B M) (statement B C (env B M) (n + 1)) (generateItem C G (env B M) (statement B C (env B M) (n + 1)) n)) (w ++ R) t R := by
  obtain ⟨t, ts, ⟨h1, h2⟩, ht, ft⟩ := bodyPar_first (A := A) (Bs := Bs) (B := B) (G := G) h (M := M) (by omega) R
  obtain ⟨_, _, rfl, ⟨x, rfl, hx⟩, -⟩ := h
  have e : ∀ c, evGenericDecl A Bs c (.val t ts) = (a :: l).map fun a => Bs.decl ⟨c, false, false⟩ (A.ident a.1) (parTyEval A Bs o) (some (a.2.eval A)) := fun c => by
    rw [evGenericDecl, h1]
    exact all2_map (fun a b h => h.ev c _) ht
  refine ⟨.item (.param (.val t ts)), ⟨fun h l => ?_, fun h ok l hl => ?_, rfl, fun h l => ?_, fun l => rfl, fun l => rfl⟩, ?_⟩
  · rw [evModItems, SModItem.eval, e, List.map_map]; rfl
  · obtain ⟨o1, o2, o3⟩ := ok
    rw [okModItems]
    exact ⟨o1, ⟨all2_all (p := okParam) (q := fun a : Ident × SExp => okIdent a.1 ∧ a.2.Ok) (fun a b h => h.ok) ht o3, h2 o2⟩, hl⟩
  · rw [evBodyParams, SModItem.generics, e]
  · simp only [List.append_assoc, List.cons_append, List.nil_append] at ft ⊢
    exact First.orN (bind_nil (bind_nil (tok_neg (by rw [hx]; decide) _))) (First.orL (First.bindH (a := []) (First.of_eq (attributes_ne (by rw [hx]; decide))) (First.orL (First.map (f := ModItem.item)
      (mog_first (by rw [hx]; decide) (gi_semi (by rw [hx]; rfl) ft))))))

theorem body_head {g : SModItem} {w : List STok} (h : g.Toks w) : ∃ x v, w = x :: v ∧ (isIdTok x.ty = true ∨ 0 < iHead x.ty) := by
  cases g with
  | item g => obtain ⟨x, v, e, h⟩ := gitem_head h.2; exact ⟨x, v, e, h.imp id And.left⟩
  | ports o => obtain ⟨_, _, rfl, ⟨x, rfl, hx⟩, -⟩ := h; exact ⟨x, _, rfl, .inr (by rw [hx]; cases o <;> decide)⟩
  | par => obtain ⟨_, _, rfl, ⟨x, rfl, hx⟩, -⟩ := h; exact ⟨x, _, rfl, .inr (by rw [hx]; decide)⟩

theorem body_send {o : Bool} : ∀ {l : List SModItem} {v : List STok}, bodyToks l v → ∀ {R}, GEnd R → SEnd o (v ++ R)
  | [], v, h, R, hR => by rw [bodyToks, Spec.SvLrm.Empty] at h; subst h; exact hR.send
  | .item g :: l, v, h, R, hR => by
    rw [bodyToks] at h
    obtain ⟨u, v, rfl, hu, -⟩ := h
    rw [List.append_assoc]; exact .item hu.2 _
  | .ports o _ _ _ :: l, v, h, R, hR => by
    rw [bodyToks] at h
    obtain ⟨u, v, rfl, hu, -⟩ := h
    obtain ⟨_, _, rfl, ⟨x, rfl, hx⟩, -⟩ := hu
    exact SEnd.of hx _ (by cases o <;> decide)
  | .par _ _ _ :: l, v, h, R, hR => by
    rw [bodyToks] at h
    obtain ⟨u, v, rfl, hu, -⟩ := h
    obtain ⟨_, _, rfl, ⟨x, rfl, hx⟩, -⟩ := hu
    exact SEnd.of hx _ (by decide)

variable (A Bs N) in
structure MMis (ts : List ModItem) (l : List SModItem) : Prop where
  ev : ∀ h, evModItems A Bs N h ts = l.flatMap (SModItem.eval A Bs N h)
  ok : ∀ h, (∀ g ∈ l, g.Ok h) → okModItems h ts
  names : ts.flatMap modItemNames = l.flatMap SModItem.names
  params : ∀ h, evBodyParams A Bs h ts = l.flatMap (SModItem.generics A Bs h)
  ports : bodyPortNames ts = l.flatMap SModItem.portNames
  decls : evBodyPorts A Bs ts = l.flatMap (SModItem.decls A Bs)

theorem moduleItems_first {M n : Nat} (hm : n + 1 < M) {y : STok} (hy : y.ty = .KW_ENDMODULE) (R : List STok) : ∀ (l : List SModItem) (v : List STok), bodyToks l v →
    v.length ≤ n + 1 → ∃ ts, MMis A Bs N ts l ∧
    ∀ m, v.length ≤ m → First None' (manyN (moduleItem C G (env B M) (statement B C (env B M) (n + 1)) (generateItem C G (env B M) (statement B C (env B M) (n + 1)) n)) m) (v ++ y :: R) ts (y :: R)
  | [], v, h, _ => by
    rw [bodyToks, Spec.SvLrm.Empty] at h; subst h
    exact ⟨[], ⟨fun _ => by rw [evModItems]; rfl, fun _ _ => by rw [okModItems]; trivial, rfl, fun _ => rfl, rfl, rfl⟩, fun m _ => First.of_eq (manyN_stop (moduleItem_end hy R) m)⟩
  | g :: l, v, h, hk => by
    rw [bodyToks] at h
    obtain ⟨u, v, rfl, hu, hv⟩ := h
    have hne : u ≠ [] := by obtain ⟨x, v, rfl, -⟩ := body_head hu; simp
    simp only [List.length_append] at hk
    have hg : GEnd (y :: R) := ⟨y, R, rfl, by rw [hy]; rfl, by rw [hy]; decide, by rw [hy]; decide⟩
    have hi : ∃ t, MMi A Bs N t g ∧ First None' (moduleItem C G (env B M) (statement B C (env B M) (n + 1)) (generateItem C G (env B M) (statement B C (env B M) (n + 1)) n)) (u ++ (v ++ y :: R)) t (v ++ y :: R) := by
      cases g with
      | item g => exact moduleItem_first hm hu.1 hu.2 (by omega) (body_send hv hg)
      | par o a l => exact modulePar_first hm hu (by omega) _
      | ports o t a l => exact modulePorts_first hu (by omega) _
    obtain ⟨t, ht, ft⟩ := hi
    obtain ⟨ts, hts, fts⟩ := moduleItems_first hm hy R l v hv (by omega)
    refine ⟨t :: ts, ⟨fun _ => by rw [ht.ev, List.flatMap_cons, hts.ev], fun k h => ?_, ?_, fun _ => by rw [ht.params, List.flatMap_cons, hts.params], by rw [ht.ports, List.flatMap_cons, hts.ports], by rw [ht.decls, List.flatMap_cons, hts.decls]⟩, ?_⟩
    · obtain ⟨h1, h2⟩ := List.forall_mem_cons.1 h
      exact ht.ok _ h1 _ (hts.ok _ h2)
    · rw [List.flatMap_cons, List.flatMap_cons, ht.names, hts.names]
    · intro m hm'
      have : u.length ≠ 0 := by simpa using hne
      simp only [List.length_append] at hm'
      obtain ⟨m, rfl⟩ : ∃ j, m = j + 1 := ⟨m - 1, by omega⟩
      rw [List.append_assoc]
      exact First.manyCons ft (fts m (by omega))

/-! ## Modules -/

variable (A Bs N) in
structure MMo (t : Mod) (m : SMod) : Prop where
  ev : evMod A Bs N t = m.eval A Bs N
  ok : m.Ok → okMod t

theorem ports_head {p : SPorts} {w : List STok} (h : p.Toks w) {z : STok} (hz : z.ty = .SEMI) (R : List STok) : ∃ y s, w ++ z :: R = y :: s ∧ (y.ty = .LPAREN ∨ y.ty = .SEMI) := by
  cases p with
  | none => rw [SPorts.Toks, Spec.SvLrm.Empty] at h; subst h; exact ⟨z, R, rfl, .inr hz⟩
  | empty => rw [SPorts.Toks] at h; obtain ⟨_, _, rfl, ⟨x, rfl, hx⟩, -⟩ := h; exact ⟨x, _, rfl, .inl hx⟩
  | list p l => rw [SPorts.Toks] at h; obtain ⟨-, _, _, rfl, ⟨x, rfl, hx⟩, -⟩ := h; exact ⟨x, _, rfl, .inl hx⟩
  | names a l => rw [SPorts.Toks] at h; obtain ⟨_, _, rfl, ⟨x, rfl, hx⟩, -⟩ := h; exact ⟨x, _, rfl, .inl hx⟩

theorem start_of {t : ST} (h : 0 < iHead t) : t ∈ itemStart := start_mem (by simp only [ilater, decide_eq_true_eq]; exact h)

theorem mod_first {n : Nat} {m : SMod} {w : List STok} (h : m.Toks w) (hk : w.length ≤ n) {R : List STok} (hR : ∀ y s, R = y :: s → y.ty ≠ .COLON) :
    ∃ t, MMo A Bs N t m ∧ First None' (moduleDeclaration B C G D n) (w ++ R) t R := by
  obtain ⟨_, _, rfl, ⟨x, rfl, hx⟩, _, _, rfl, ⟨i, rfl, hi⟩, k, _, rfl, hpar, p, _, rfl, hp, _, _, rfl, ⟨z, rfl, hz⟩, v, _, rfl, hv, _, u, rfl, ⟨y, rfl, hy⟩, hu⟩ := h
  simp only [List.length_append, List.length_cons, List.length_nil] at hk
  obtain ⟨tp, mp, fp⟩ := ports_first (A := A) (Bs := Bs) (B := B) hp (M := 7 * n + 7) (by omega) hz (v ++ y :: (u ++ R))
  obtain ⟨ts, mi, fi⟩ := moduleItems_first (A := A) (Bs := Bs) (N := N) (B := B) (C := C) (G := G) (M := 7 * n + 7) (n := n) (by omega) hy (u ++ R) m.items v hv (by omega)
  obtain ⟨q, s, e, hq⟩ := ports_head hp hz (v ++ y :: (u ++ R))
  obtain ⟨tk, mk, hdr, fk⟩ := pars_first (A := A) (Bs := Bs) (B := B) hpar (M := 7 * n + 7) (by omega) (R := p ++ z :: (v ++ y :: (u ++ R))) ⟨q, s, e, hq⟩
  simp only [List.append_assoc, List.cons_append, List.nil_append]
  refine ⟨.mk false ⟨m.name, tk⟩ (tp.getD .none) ts, ⟨?_, ?_⟩, ?_⟩
  · rw [evMod, SMod.eval, mp.ev]
    simp only [mk.ev, mk.some, mi.params, mi.ev, mi.decls]
  · rintro ⟨h1, h2, h0, h3, h4, h5⟩
    rw [okMod]
    refine ⟨rfl, h1, h2, mk.ok h0, mp.ok _ (by rw [mi.ports]; exact h3), mi.ok _ (by rw [mk.some]; exact h4), ?_⟩
    rw [mi.names, mp.names]
    exact h5
  · have hh : First None' (moduleHeader (env B (7 * n + 7))) (x :: i :: (k ++ (p ++ z :: (v ++ y :: (u ++ R))))) ⟨m.name, tk⟩ (p ++ z :: (v ++ y :: (u ++ R))) := by
      refine First.bindH (a := []) (First.of_eq (attributes_ne (by rw [hx]; decide))) (First.bindH (a := x.text) (r1 := i :: (k ++ (p ++ z :: (v ++ y :: (u ++ R))))) (First.of_eq ?_) (First.bindH (a := none) (First.noneE ?_)
        (First.bindH (identifier_first hi _) (First.bindH (a := []) (First.of_eq (many_none (bind_nil (tok_ne hdr)))) (First.bindH fk (First.ret _ _))))))
      · rw [texts, alts_apply]; simp [tok_cons, hx]
      · exact (NoAt.toks (N := isIdTok) (by decide)).cons (ident_id hi)
    have ht : D.timeunits (v ++ y :: (u ++ R)) = [] := by
      cases hl : m.items with
      | nil =>
        rw [hl, bodyToks, Spec.SvLrm.Empty] at hv; subst hv
        exact D.time_no.2 _ _ (by rw [hy]; decide)
      | cons g l =>
        rw [hl, bodyToks] at hv
        obtain ⟨v1, v2, rfl, hv1, -⟩ := hv
        obtain ⟨x1, v3, rfl, hx1⟩ := body_head hv1
        refine D.time_no.2 _ _ ?_
        rcases hx1 with hx1 | hx1
        · exact List.mem_append_right _ (id_mem hx1)
        · exact List.mem_append_left _ (List.mem_cons_of_mem _ (start_of hx1))
    refine First.orN (bind_nil (tok_neg (by rw [hx]; decide) _)) (First.bindH hh (First.bindH fp (First.bindH (First.tok hz _) (First.bindH (a := none) (First.noneE ht)
      (First.bindH (First.many (fi _ (by simp))) (First.bindH (First.tok hy _) (First.bindH (blockLabel_first hu hR) (First.ret _ _))))))))

theorem mods_colon {l : List SMod} {w : List STok} (h : modsToks l w) : ∀ y s, w = y :: s → y.ty = .KW_MODULE := by
  cases l with
  | nil => rw [modsToks, Spec.SvLrm.Empty] at h; subst h; intro _ _ e; cases e
  | cons m l =>
    rw [modsToks] at h
    obtain ⟨_, _, rfl, ⟨_, _, rfl, ⟨x, rfl, hx⟩, -⟩, -⟩ := h
    rintro _ _ ⟨⟩; exact hx

theorem mod_nonempty {m : SMod} {w : List STok} (h : m.Toks w) : w ≠ [] := by
  obtain ⟨_, _, rfl, ⟨x, rfl, hx⟩, -⟩ := h; simp

theorem description_nil (n : Nat) : description B C G D n [] = [] := by
  have h0 : moduleHeader (env B (7 * n + 7)) [] = [] := by
    show (attributes (env B (7 * n + 7)) >>= fun _ => _) [] = []
    have : attributes (env B (7 * n + 7)) [] = [([], [])] := many_none rfl
    rw [bind_apply, this]
    rfl
  have h1 : moduleDeclaration B C G D n [] = [] := by
    show (tok .KW_EXTERN >>= fun _ => _) [] ++ (moduleHeader (env B (7 * n + 7)) >>= fun _ => _) [] = []
    rw [bind_nil h0]; rfl
  rw [description, or_apply, bind_nil h1, bind_nil D.other_no]; rfl

theorem mods_first {n : Nat} : ∀ (l : List SMod) (w : List STok), modsToks l w → w.length ≤ n →
    ∃ ts, All2 (MMo A Bs N) ts l ∧ ∀ k, w.length ≤ k → First None' (manyN (description B C G D n) k) w (ts.map .module_) []
  | [], w, h, _ => by
    rw [modsToks, Spec.SvLrm.Empty] at h; subst h
    exact ⟨[], .nil, fun k _ => First.of_eq (manyN_stop (description_nil n) k)⟩
  | m :: l, w, h, hk => by
    rw [modsToks] at h
    obtain ⟨u, v, rfl, hu, hv⟩ := h
    have hne := mod_nonempty hu
    simp only [List.length_append] at hk
    obtain ⟨t, ht, ft⟩ := mod_first (A := A) (Bs := Bs) (N := N) (B := B) (C := C) (G := G) (D := D) (n := n) hu (by omega) (R := v) fun y s e => by rw [mods_colon hv y s e]; decide
    obtain ⟨ts, hts, fts⟩ := mods_first (n := n) l v hv (by omega)
    refine ⟨t :: ts, .cons ht hts, fun k hk' => ?_⟩
    have : u.length ≠ 0 := by simpa using hne
    simp only [List.length_append] at hk'
    obtain ⟨k, rfl⟩ : ∃ j, k = j + 1 := ⟨k - 1, by omega⟩
    exact First.manyCons (First.orL (First.map (f := Desc.module_) ft)) (fts k (by omega))

theorem source_first {n : Nat} {l : List SMod} {w : List STok} (h : modsToks l w) (hk : w.length ≤ n) :
    ∃ ts, All2 (MMo A Bs N) ts l ∧ First None' (sourceText B C G D n) w (ts.map .module_) [] := by
  obtain ⟨ts, hts, f⟩ := mods_first (A := A) (Bs := Bs) (N := N) (B := B) (C := C) (G := G) (D := D) (n := n) l w h hk
  refine ⟨ts, hts, First.bindH (a := none) (First.noneE ?_) (First.many (f _ (Nat.le_refl _)))⟩
  cases w with
  | nil => exact D.time_no.1
  | cons y s => exact D.time_no.2 _ _ (by rw [mods_colon h y s rfl]; decide)

end Verif.Sv
