import Verif.Props.SvDecl
/-!
# Directions of the ports of a SystemVerilog module (C42)
-/
namespace Verif.Spec.Sv
open Verif Verif.Sv

/-- The port declarations in the body of a module: name and direction, in order. -/
def bodyPorts : List ModItem → List (Ident × Dir)
  | [] => []
  | .port d :: l => (names d).map (fun v => (v.name, declDir d)) ++ bodyPorts l
  | _ :: l => bodyPorts l

/-- The identifier of an ANSI port. -/
def ansiName : AnsiPort → Ident
  | .decl _ i _ _ => i
  | .expl _ i _ => i

/-- Direction of `n` after the declarations `l`, `d` before. -/
def lastDir (n : Str) (d : Dir) : List (Str × Dir) → Dir
  | [] => d
  | (m, e) :: l => lastDir n (if m = n then e else d) l

end Verif.Spec.Sv

namespace Verif.Sv
open Verif Verif.Spec.Sv

/-! ## Helper lemmas -/

theorem PortDir.toDir_eq (d : PortDir) : d.toDir = dirOf d := by cases d <;> rfl

theorem AnsiPort.dir?_eq (p : AnsiPort) : p.dir? = ansiDir p := by
  match p with
  | .decl .none _ _ _ | .decl (.dir _ _) _ _ _ | .decl (.type _) _ _ _ | .decl (.iface _ _) _ _ _ | .expl none _ _
  | .expl (some _) _ _ => rfl

theorem ansiPort_dir (D : Option Dir) (pb : Expr) (p : AnsiPort) (x : IdDef × Expr) : visitAnsiPort D pb p = .ok x →
    x.1.dir = (match ansiDir p with | some d => dirOf d | none => (match D with | some d => d | none => .UNKNOWN)) ∧
    identStr (ansiName p) = .ok x.1.name := by
  intro h
  unfold visitAnsiPort at h
  rw [AnsiPort.dir?_eq] at h
  have hd : ∀ a b : Dir, (match ansiDir p with | some d => d.toDir | none => a) = b →
      b = (match ansiDir p with | some d => dirOf d | none => a) := by
    intro a b h
    rw [← h]
    cases ansiDir p with
    | none => rfl
    | some d => exact PortDir.toDir_eq d
  cases p with
  | expl d n e =>
    simp only [bind_ok, pure_ok] at h
    obtain ⟨n', h1, _, _, rfl⟩ := h
    exact ⟨hd _ _ rfl, h1⟩
  | decl hh n dims v =>
    simp only [bind_ok, pure_ok] at h
    obtain ⟨n', h1, _, _, _, _, _, _, _, _, _, _, rfl⟩ := h
    exact ⟨hd _ _ rfl, h1⟩

/-- Directions as long as `UNKNOWN` stands for "not known yet". -/
theorem ansiPorts_dirs (l : List AnsiPort) : ∀ (D : Option Dir) (pb : Expr) (r : List IdDef), visitAnsiPorts D pb l = .ok r →
    r.map (·.dir) = ansiDirs (match D with | some d => d | none => .UNKNOWN) l ∧
    List.Forall₂ (fun p d => identStr (ansiName p) = .ok d.name) l r := by
  induction l with
  | nil => intro D pb r h; simp only [visitAnsiPorts, Except.ok.injEq] at h; rw [← h]; exact ⟨rfl, .nil⟩
  | cons p l ih =>
    intro D pb r h
    simp only [visitAnsiPorts, bind_ok, pure_ok] at h
    obtain ⟨x, hx, r', hr', rfl⟩ := h
    obtain ⟨h1, h2⟩ := ansiPort_dir D pb p x hx
    obtain ⟨h3, h4⟩ := ih _ _ _ hr'
    refine ⟨?_, .cons h2 h4⟩
    rw [List.map_cons, h3, h1, ansiDirs]
    cases ansiDir p <;> rfl

theorem ansiDirs_known (l : List AnsiPort) : ∀ d : Dir, d ≠ .UNKNOWN → ∀ x ∈ ansiDirs d l, x ≠ .UNKNOWN := by
  induction l with
  | nil => intro d _ x hx; simp [ansiDirs] at hx
  | cons p l ih =>
    intro d hd x hx
    simp only [ansiDirs] at hx
    split at hx
    · rename_i e _
      have he : dirOf e ≠ .UNKNOWN := by cases e <;> simp [dirOf]
      rcases List.mem_cons.1 hx with rfl | h
      · exact he
      · exact ih _ he x h
    · rcases List.mem_cons.1 hx with rfl | h
      · exact hd
      · exact ih _ hd x h

theorem finishPorts_known (l : List IdDef) : ∀ prev : Dir, (∀ p ∈ l, p.dir ≠ .UNKNOWN) →
    (finishPorts prev l).map (fun p => (p.name, p.dir)) = l.map fun p => (p.name, p.dir) := by
  induction l with
  | nil => intro _ _; rfl
  | cons p l ih =>
    intro prev h
    rw [finishPorts, if_neg (h p List.mem_cons_self), List.map_cons, ih _ fun q hq => h q (List.mem_cons_of_mem _ hq)]
    rfl

/-- After the first known direction there are no unknown ones. -/
theorem finishPorts_ansi (l : List AnsiPort) : ∀ (ps : List IdDef) (d : Dir), d ≠ .UNKNOWN →
    (ps.map (·.dir) = ansiDirs .UNKNOWN l ∨ ps.map (·.dir) = ansiDirs d l) →
    (finishPorts d ps).map (·.dir) = ansiDirs d l ∧ (finishPorts d ps).map (·.name) = ps.map (·.name) := by
  induction l with
  | nil =>
    intro ps d _ h
    have : ps = [] := by rcases h with h | h <;> simpa [ansiDirs] using h
    rw [this]; exact ⟨rfl, rfl⟩
  | cons p l ih =>
    intro ps d hd h
    cases ps with
    | nil =>
      exfalso
      rcases h with h | h <;> · simp only [List.map_nil, ansiDirs] at h; split at h <;> cases h
    | cons q ps =>
      simp only [List.map_cons, ansiDirs] at h ⊢
      cases ha : ansiDir p with
      | some e =>
        have he : dirOf e ≠ .UNKNOWN := by cases e <;> simp [dirOf]
        simp only [ha, List.cons.injEq, or_self] at h
        have hq : q.dir ≠ .UNKNOWN := by rw [h.1]; exact he
        rw [finishPorts, if_neg hq]
        obtain ⟨h1, h2⟩ := ih ps q.dir hq (.inr (by rw [h.1]; exact h.2))
        rw [List.map_cons, h1, List.map_cons, h2, h.1]
        exact ⟨by simp only [defaultType, h.1], rfl⟩
      | none =>
        simp only [ha, List.cons.injEq] at h
        rcases h with ⟨h1, h2⟩ | ⟨h1, h2⟩
        · rw [finishPorts, if_pos h1]
          obtain ⟨h3, h4⟩ := ih ps d hd (.inl h2)
          rw [List.map_cons, h3, List.map_cons, h4]
          exact ⟨rfl, rfl⟩
        · have hq : q.dir ≠ .UNKNOWN := by rw [h1]; exact hd
          rw [finishPorts, if_neg hq]
          obtain ⟨h3, h4⟩ := ih ps q.dir hq (.inr (by rw [h1]; exact h2))
          rw [List.map_cons, h3, List.map_cons, h4, h1]
          exact ⟨by simp only [defaultType, h1], rfl⟩

theorem updPort_map {α : Type} (g : IdDef → α) (n : Str) (f : IdDef → IdDef) (hf : ∀ p, g (f p) = g p) :
    ∀ (l l' : List IdDef), updPort n f l = some l' → l'.map g = l.map g := by
  intro l
  induction l with
  | nil => intro l' h; simp [updPort] at h
  | cons p l ih =>
    intro l' h
    simp only [updPort] at h
    split at h
    · obtain rfl := Option.some.inj h
      simp [hf]
    · split at h
      · cases h
      · rename_i l2 h2
        obtain rfl := Option.some.inj h
        simp [ih l2 h2]

theorem consumePortVars_map {α : Type} (g : IdDef → α) (hg : ∀ v p, g (updPortVar v p) = g p) (l : List Obj) :
    ∀ ps : List IdDef, (consumePortVars ps l).2.map g = ps.map g := by
  induction l with
  | nil => intro ps; rfl
  | cons o l ih =>
    intro ps
    simp only [consumePortVars]
    split
    · exact ih ps
    · split
      · exact ih ps
      · rename_i ps' h
        rw [ih ps', updPort_map g _ _ (hg _) _ _ h]

theorem modItem_ports (st st' : ModState) (i : ModItem) (hi : ∀ d, i ≠ .port d) (h : visitModItem st i = .ok st') :
    st'.ports = st.ports := by
  cases i with
  | region l => simp only [visitModItem, bind_ok, pure_ok] at h; obtain ⟨_, _, rfl⟩ := h; rfl
  | item i => simp only [visitModItem, bind_ok, pure_ok] at h; obtain ⟨_, _, rfl⟩ := h; rfl
  | module_ m => simp only [visitModItem, bind_ok, pure_ok] at h; obtain ⟨_, _, rfl⟩ := h; rfl
  | port d => exact absurd rfl (hi d)
  | other => simp only [visitModItem, Except.ok.injEq] at h; rw [h]

theorem modItems_ports (l : List ModItem) : ∀ st st' : ModState, (∀ d, ModItem.port d ∉ l) → visitModItems st l = .ok st' →
    st'.ports = st.ports := by
  induction l with
  | nil => intro st st' _ h; simp only [visitModItems, Except.ok.injEq] at h; rw [h]
  | cons i l ih =>
    intro st st' hn h
    simp only [visitModItems, bind_ok] at h
    obtain ⟨s1, h1, h2⟩ := h
    rw [ih s1 st' (fun d hd => hn d (List.mem_cons_of_mem _ hd)) h2]
    exact modItem_ports st s1 i (fun d hd => hn d (by rw [hd]; exact List.mem_cons_self)) h1

theorem varIds_names (lat : Bool) (dir : Dir) (base : Expr) (l : List VarId) (r : List IdDef) (h : visitVarIds lat dir base l = .ok r) :
    List.Forall₂ (fun v d => identStr v.name = .ok d.name ∧ d.dir = dir) l r := by
  have one : ∀ t v d, visitVarId lat dir t v = .ok d → identStr v.name = .ok d.name ∧ d.dir = dir := by
    intro t v d h
    simp only [visitVarId, bind_ok, pure_ok] at h
    obtain ⟨_, _, n, hn, _, _, rfl⟩ := h
    exact ⟨hn, rfl⟩
  have rest : ∀ (base : Expr) (l : List VarId) (r : List IdDef), visitVarIdsRest lat dir base l = .ok r →
      List.Forall₂ (fun v d => identStr v.name = .ok d.name ∧ d.dir = dir) l r := by
    intro base l
    induction l with
    | nil => intro r h; simp only [visitVarIdsRest, Except.ok.injEq] at h; rw [← h]; exact .nil
    | cons v l ih =>
      intro r h
      simp only [visitVarIdsRest, bind_ok, pure_ok] at h
      obtain ⟨t, _, d, hd, l', hl', rfl⟩ := h
      exact .cons (one _ _ _ hd) (ih _ hl')
  cases l with
  | nil => simp only [visitVarIds, Except.ok.injEq] at h; rw [← h]; exact .nil
  | cons v l =>
    simp only [visitVarIds, bind_ok, pure_ok] at h
    obtain ⟨d, hd, b, _, l', hl', rfl⟩ := h
    exact .cons (one _ _ _ hd) (rest _ _ _ hl')

theorem nonansiDecl_names (d : NonansiDecl) (r : List IdDef) (h : visitNonansiDecl d = .ok r) :
    List.Forall₂ (fun v x => identStr v.name = .ok x.name ∧ x.dir = declDir d) (names d) r := by
  cases d with
  | iface i m l =>
    simp only [visitNonansiDecl, bind_ok] at h
    obtain ⟨_, _, _, _, h⟩ := h
    exact varIds_names _ _ _ _ _ h
  | _ =>
    simp only [visitNonansiDecl, bind_ok] at h
    obtain ⟨_, _, h⟩ := h
    exact varIds_names _ _ _ _ _ h

theorem updPort_some (n : Str) (f : IdDef → IdDef) : ∀ l : List IdDef, n ∈ l.map (·.name) → ∃ l', updPort n f l = some l' := by
  intro l
  induction l with
  | nil => intro h; simp at h
  | cons p l ih =>
    intro h
    by_cases hp : p.name = n
    · exact ⟨f p :: l, by rw [updPort, if_pos hp]⟩
    · obtain ⟨l', h'⟩ := ih (by
        rcases List.mem_cons.1 h with h | h
        · exact absurd h.symm hp
        · exact h)
      exact ⟨p :: l', by rw [updPort, if_neg hp, h']⟩

/-- With distinct names, the update changes the port of the name only. -/
theorem updPort_nodup (n : Str) (f : IdDef → IdDef) : ∀ l l' : List IdDef, (l.map (·.name)).Nodup → updPort n f l = some l' →
    l' = l.map fun p => if p.name = n then f p else p := by
  intro l
  induction l with
  | nil => intro l' _ h; simp [updPort] at h
  | cons p l ih =>
    intro l' hn h
    rw [List.map_cons, List.nodup_cons] at hn
    simp only [updPort] at h
    split at h
    · rename_i hp
      obtain rfl := Option.some.inj h
      rw [List.map_cons, if_pos hp]
      congr 1
      conv_lhs => rw [← List.map_id l]
      apply List.map_congr_left
      intro q hq
      rw [if_neg]
      · rfl
      · intro hqn
        exact hn.1 (by rw [hp, ← hqn]; exact List.mem_map_of_mem hq)
    · rename_i hp
      split at h
      · cases h
      · rename_i l2 h2
        obtain rfl := Option.some.inj h
        rw [List.map_cons, if_neg hp, ih l2 hn.2 h2]

theorem getPort_some (n : Str) (l : List IdDef) (h : n ∈ l.map (·.name)) : ∃ p, getPort n l = some p := by
  cases hg : getPort n l with
  | some p => exact ⟨p, rfl⟩
  | none =>
    exfalso
    rw [getPort, List.find?_eq_none] at hg
    obtain ⟨p, hp, rfl⟩ := List.mem_map.1 h
    exact hg p hp (by simp)

theorem applyPortDecl_dirs (ps ps' : List IdDef) (d : IdDef) (hn : (ps.map (·.name)).Nodup) (hm : d.name ∈ ps.map (·.name))
    (h : applyPortDecl ps d = .ok ps') :
    ps'.map (fun p => (p.name, p.dir)) = ps.map fun p => (p.name, if d.name = p.name then d.dir else p.dir) := by
  obtain ⟨q, hq⟩ := getPort_some _ _ hm
  obtain ⟨l', hl'⟩ := updPort_some d.name (updPortDecl d) ps hm
  simp only [applyPortDecl, hq, hl'] at h
  split at h
  · cases h
  · obtain rfl := Except.ok.inj h
    rw [updPort_nodup _ _ _ _ hn hl', List.map_map]
    apply List.map_congr_left
    intro p _
    by_cases hp : p.name = d.name
    · simp [Function.comp, hp, updPortDecl]
    · have : ¬ d.name = p.name := fun h => hp h.symm
      simp [Function.comp, hp, this]

theorem names_of_pairs {ps qs : List IdDef} {f : IdDef → Dir} (h : ps.map (fun p => (p.name, p.dir)) = qs.map fun p => (p.name, f p)) :
    ps.map (·.name) = qs.map (·.name) := by
  have := congrArg (List.map Prod.fst) h
  rw [List.map_map, List.map_map] at this
  exact this

theorem applyPortDecls_dirs (ds : List IdDef) : ∀ ps ps' : List IdDef, (ps.map (·.name)).Nodup →
    (∀ d ∈ ds, d.name ∈ ps.map (·.name)) → applyPortDecls ps ds = .ok ps' →
    ps'.map (fun p => (p.name, p.dir)) = ps.map fun p => (p.name, lastDir p.name p.dir (ds.map fun d => (d.name, d.dir))) := by
  induction ds with
  | nil => intro ps ps' _ _ h; simp only [applyPortDecls, Except.ok.injEq] at h; rw [← h]; rfl
  | cons d ds ih =>
    intro ps ps' hn hm h
    simp only [applyPortDecls, bind_ok] at h
    obtain ⟨p1, h1, h2⟩ := h
    have e := applyPortDecl_dirs ps p1 d hn (hm d List.mem_cons_self) h1
    have en := names_of_pairs e
    rw [ih p1 ps' (by rw [en]; exact hn) (fun x hx => by rw [en]; exact hm x (List.mem_cons_of_mem _ hx)) h2]
    have g : ∀ l : List IdDef, l.map (fun p => (p.name, lastDir p.name p.dir (ds.map fun d => (d.name, d.dir)))) =
        (l.map fun p => (p.name, p.dir)).map fun x => (x.1, lastDir x.1 x.2 (ds.map fun d => (d.name, d.dir))) := by
      intro l; rw [List.map_map]; rfl
    rw [g p1, e, List.map_map]
    rfl

theorem lastDir_append (n : Str) (l1 : List (Str × Dir)) : ∀ (d : Dir) (l2 : List (Str × Dir)),
    lastDir n d (l1 ++ l2) = lastDir n (lastDir n d l1) l2 := by
  induction l1 with
  | nil => intro d l2; rfl
  | cons x l1 ih => intro d l2; exact ih _ _

theorem identStr_plain (i : Ident) (h : i.esc = false) (s : Str) (hs : identStr i = .ok s) : s = i.text := by
  simp only [identStr, h, Bool.false_eq_true, if_false, Except.ok.injEq] at hs
  exact hs.symm

theorem pairs_of_names (d : Dir) (l : List VarId) (r : List IdDef) (he : ∀ v ∈ l, v.name.esc = false)
    (h : List.Forall₂ (fun v x => identStr v.name = .ok x.name ∧ x.dir = d) l r) :
    r.map (fun x => (x.name, x.dir)) = l.map fun v => (v.name.text, d) := by
  induction h with
  | nil => rfl
  | cons h1 h2 ih =>
    rw [List.map_cons, List.map_cons, ih fun v hv => he v (List.mem_cons_of_mem _ hv), h1.2,
      identStr_plain _ (he _ List.mem_cons_self) _ h1.1]

theorem modItems_dirs (l : List ModItem) : ∀ st st' : ModState, (st.ports.map (·.name)).Nodup →
    (∀ x ∈ bodyPorts l, x.1.esc = false ∧ x.1.text ∈ st.ports.map (·.name)) → visitModItems st l = .ok st' →
    st'.ports.map (fun p => (p.name, p.dir)) =
      st.ports.map fun p => (p.name, lastDir p.name p.dir ((bodyPorts l).map fun x => (x.1.text, x.2))) := by
  induction l with
  | nil => intro st st' _ _ h; simp only [visitModItems, Except.ok.injEq] at h; rw [← h]; rfl
  | cons i l ih =>
    intro st st' hn hm h
    simp only [visitModItems, bind_ok] at h
    obtain ⟨s1, h1, h2⟩ := h
    have other : (∀ d, i ≠ .port d) → bodyPorts (i :: l) = bodyPorts l ∧ s1.ports = st.ports := by
      intro hi
      refine ⟨?_, modItem_ports st s1 i hi h1⟩
      cases i <;> first | rfl | exact absurd rfl (hi _)
    by_cases hi : ∀ d, i ≠ .port d
    · obtain ⟨e1, e2⟩ := other hi
      rw [e1] at hm ⊢
      rw [← e2] at hn hm ⊢
      exact ih s1 st' hn hm h2
    · obtain ⟨d, rfl⟩ : ∃ d, i = .port d := by
        apply Classical.byContradiction
        intro hc
        exact hi fun d hd => hc ⟨d, hd⟩
      simp only [visitModItem, bind_ok, pure_ok] at h1
      obtain ⟨ds, hds, ps, hps, rfl⟩ := h1
      have hb : bodyPorts (.port d :: l) = (names d).map (fun v => (v.name, declDir d)) ++ bodyPorts l := rfl
      rw [hb] at hm ⊢
      have hpair := pairs_of_names (declDir d) (names d) ds
        (fun v hv => (hm (v.name, declDir d) (List.mem_append_left _ (List.mem_map_of_mem hv))).1) (nonansiDecl_names d ds hds)
      have e := applyPortDecls_dirs ds st.ports ps hn (fun x hx => by
        have : (x.name, x.dir) ∈ ds.map fun x => (x.name, x.dir) := List.mem_map_of_mem hx
        rw [hpair] at this
        obtain ⟨v, hv, hv'⟩ := List.mem_map.1 this
        have := (hm (v.name, declDir d) (List.mem_append_left _ (List.mem_map_of_mem hv))).2
        rw [Prod.mk.injEq] at hv'
        rw [← hv'.1]; exact this) hps
      have en := names_of_pairs e
      have e2 := ih _ st' (by dsimp only; rw [en]; exact hn)
        (fun x hx => by dsimp only; rw [en]; exact hm x (List.mem_append_right _ hx)) h2
      rw [e2]
      dsimp only
      have g : ∀ L : List IdDef, L.map (fun p => (p.name, lastDir p.name p.dir ((bodyPorts l).map fun x => (x.1.text, x.2)))) =
          (L.map fun p => (p.name, p.dir)).map fun x => (x.1, lastDir x.1 x.2 ((bodyPorts l).map fun x => (x.1.text, x.2))) := by
        intro l; rw [List.map_map]; rfl
      rw [g ps, e, List.map_map]
      apply List.map_congr_left
      intro p _
      simp only [Function.comp, List.map_append, lastDir_append, hpair, List.map_map]
      rfl

theorem lastDir_known (n : Str) (l : List (Str × Dir)) : ∀ d : Dir, d ≠ .UNKNOWN → (∀ x ∈ l, x.2 ≠ .UNKNOWN) → lastDir n d l ≠ .UNKNOWN := by
  induction l with
  | nil => intro d hd _; exact hd
  | cons x l ih =>
    intro d hd hl
    apply ih
    · split
      · exact hl x List.mem_cons_self
      · exact hd
    · exact fun y hy => hl y (List.mem_cons_of_mem _ hy)

theorem bodyPorts_known (l : List ModItem) : ∀ x ∈ bodyPorts l, x.2 ≠ .UNKNOWN := by
  induction l with
  | nil => intro x hx; simp [bodyPorts] at hx
  | cons i l ih =>
    intro x hx
    cases i with
    | port d =>
      rcases List.mem_append.1 hx with h | h
      · obtain ⟨v, _, rfl⟩ := List.mem_map.1 h
        cases d <;> simp [declDir]
      · exact ih x h
    | _ => exact ih x hx

theorem nonansiHeader (ns : List Ident) (he : ∀ i ∈ ns, i.esc = false) :
    visitNonansiPorts (ns.map fun i => some (.expr (.one ⟨i, none, []⟩))) =
      .ok (ns.map fun i => { name := i.text, type := .null, value := .null }) := by
  induction ns with
  | nil => rfl
  | cons i ns ih =>
    have hi := he i List.mem_cons_self
    simp only [List.map_cons, visitNonansiPorts, ih fun j hj => he j (List.mem_cons_of_mem _ hj), visitNonansiPort, visitNonansiExpr,
      visitDotIndex, visitIdent, identStr, hi, Bool.false_eq_true, if_false, visitDotIndexRanges, splitTypeBase, bind, Except.bind, pure,
      Except.pure]

/-! ## C42 -/

/-- C42, ANSI port lists: the ports of the module have the names of the list in order; each has its own direction or the one of the nearest
preceding port that has one, `inout` if there is none. -/
theorem C42_ansi (h : ModHeader) (l : List AnsiPort) (items : List ModItem) (hn : ∀ d, ModItem.port d ∉ items) (o : Obj)
    (hr : visitMod (.mk false h (.list (.ansi l)) items) = .ok o) :
    ∃ gs ps objs, o = .modDef [] (.id none h.name.text) (.modDec h.name.text gs ps []) objs ∧
      ps.map (·.dir) = ansiDirs .INOUT l ∧ List.Forall₂ (fun p d => identStr (ansiName p) = .ok d.name) l ps := by
  simp only [visitMod, bind_ok, Bool.false_eq_true, if_false, pure_ok] at hr
  obtain ⟨gs, _, ps, hps, st, hst, rfl⟩ := hr
  simp only [visitHdrPorts, visitPortList] at hps
  obtain ⟨h1, h2⟩ := ansiPorts_dirs l none .null ps hps
  have h3 := modItems_ports items _ st hn hst
  dsimp only at h3
  have hdir := consumePortVars_map (·.dir) (fun _ _ => rfl) st.objs st.ports
  have hname := consumePortVars_map (·.name) (fun _ _ => rfl) st.objs st.ports
  rw [h3] at hdir hname
  obtain ⟨h4, h5⟩ := finishPorts_ansi l (consumePortVars st.ports st.objs).2 .INOUT (by simp) (.inl (by rw [h3, hdir]; exact h1))
  refine ⟨_, _, _, rfl, h4, ?_⟩
  rw [h3] at h5 ⊢
  rw [hname] at h5
  have h6 : List.Forall₂ (fun p n => identStr (ansiName p) = .ok n) l (ps.map (·.name)) := by
    rw [List.forall₂_map_right_iff]; exact h2
  rw [← h5, List.forall₂_map_right_iff] at h6
  exact h6


/-- C42, non-ANSI port lists `module m(a, b, ...); input a; ...`: the ports of the module have the names of the header in order; each has
the direction of its last declaration in the body, `INTERNAL` if there is none. -/
theorem C42_nonansi (h : ModHeader) (ns : List Ident) (items : List ModItem) (he : ∀ i ∈ ns, i.esc = false)
    (hn : (ns.map (·.text)).Nodup) (hb : ∀ x ∈ bodyPorts items, x.1.esc = false ∧ x.1.text ∈ ns.map (·.text)) (o : Obj)
    (hr : visitMod (.mk false h (.list (.nonansi (ns.map fun i => some (.expr (.one ⟨i, none, []⟩))))) items) = .ok o) :
    ∃ gs ps objs, o = .modDef [] (.id none h.name.text) (.modDec h.name.text gs ps []) objs ∧
      ps.map (fun p => (p.name, p.dir)) =
        ns.map fun i => (i.text, lastDir i.text .INTERNAL ((bodyPorts items).map fun x => (x.1.text, x.2))) := by
  simp only [visitMod, bind_ok, Bool.false_eq_true, if_false, pure_ok] at hr
  obtain ⟨gs, _, ps, hps, st, hst, rfl⟩ := hr
  simp only [visitHdrPorts, visitPortList, nonansiHeader ns he, Except.ok.injEq] at hps
  subst hps
  refine ⟨_, _, _, rfl, ?_⟩
  have e := modItems_dirs items _ st (by dsimp only; rw [List.map_map]; exact hn)
    (fun x hx => by dsimp only; rw [List.map_map]; exact hb x hx) hst
  have hc := consumePortVars_map (fun p => (p.name, p.dir)) (fun _ _ => rfl) st.objs st.ports
  rw [e] at hc
  dsimp only at hc
  rw [List.map_map] at hc
  rw [finishPorts_known, hc]
  · rfl
  · intro p hp
    have : (p.name, p.dir) ∈ (consumePortVars st.ports st.objs).2.map fun p => (p.name, p.dir) := List.mem_map_of_mem hp
    rw [hc] at this
    obtain ⟨i, _, hi⟩ := List.mem_map.1 this
    rw [Prod.mk.injEq] at hi
    rw [← hi.2]
    apply lastDir_known
    · simp
    · intro x hx
      obtain ⟨y, hy, rfl⟩ := List.mem_map.1 hx
      exact bodyPorts_known items y hy

/-- C42 is violated for `extern` modules: the direction of a port before the first keyword stays unknown, and the conversion to Python fails
on it. -/
theorem C42_violated_extern (h : ModHeader) (hp : h.params = none) (a : Str) :
    visitMod (.mk true h (.list (.ansi [.decl (.type (.type (.type exVec))) (idI a) [] none])) []) =
      .ok (.modDec h.name.text [] [{ name := a, type := astLogic (.op none .DOWNTO [.id none (c! "W"), .id none (c! "Z")]), value := .null,
                                     dir := .UNKNOWN }] []) ∧
    ∃ m, Dir.toString .UNKNOWN = .error m := by
  refine ⟨?_, _, rfl⟩
  simp only [visitMod, hp, visitHdrParams, visitHdrPorts, visitPortList, visitAnsiPorts, visitAnsiPort, visitAnsiHead, visitNetOrVar,
    visitDTypeOrImpl, visit_exVec, applyVDims, visitVDims, afterDims, identStr, idI, visitOptExp, bind, Except.bind, pure, Except.pure]
  rfl

/-- `module m(logic [W:Z] a, output b, c, .d(), input e); wire b; endmodule` -/
def exAnsi : List AnsiPort :=
  [.decl (.type (.type (.type exVec))) (idI (c! "a")) [] none, .decl (.dir .output none) (idI (c! "b")) [] none,
   .decl .none (idI (c! "c")) [] none, .expl none (idI (c! "d")) none, .decl (.dir .input none) (idI (c! "e")) [] none]

example : (∃ o, visitMod (.mk false ⟨idI (c! "m"), none⟩ (.list (.ansi exAnsi))
      [.item (.net (.net (c! "wire") false none [⟨idI (c! "b"), [], none⟩]))]) = .ok o) ∧
    ansiDirs .INOUT exAnsi = [.INOUT, .OUT, .OUT, .OUT, .IN] := by
  refine ⟨?_, rfl⟩
  simp only [exAnsi, visitMod, visitHdrParams, visitHdrPorts, visitPortList, visitAnsiPorts, visitAnsiPort, visitAnsiHead, visitNetOrVar,
    visitDTypeOrImpl, visit_exVec, applyVDims, visitVDims, afterDims, identStr, idI, visitOptExp, visitModItems, visitModItem, visitGenItem,
    visitNetDecl, visitNetAssigns, visitNetAssign, visitNetAssignsRest, visitUnpackedDims, bind, Except.bind, pure, Except.pure]
  exact ⟨_, rfl⟩

/-- `module m(a, b, c); input a; output b; reg b; endmodule` -/
example : let ns := [idI (c! "a"), idI (c! "b"), idI (c! "c")]
    let items : List ModItem := [.port (.input none [⟨idI (c! "a"), [], none⟩]), .port (.output none [⟨idI (c! "b"), [], none⟩]),
      .item (.data (.vars false none (some (.type exVec)) [⟨idI (c! "b"), [], .none⟩]))]
    (∃ o, visitMod (.mk false ⟨idI (c! "m"), none⟩ (.list (.nonansi (ns.map fun i => some (.expr (.one ⟨i, none, []⟩))))) items) = .ok o) ∧
    (ns.map fun i => lastDir i.text .INTERNAL ((bodyPorts items).map fun x => (x.1.text, x.2))) = [.IN, .OUT, .INTERNAL] := by
  refine ⟨?_, rfl⟩
  simp only [List.map_cons, List.map_nil, visitMod, visitHdrParams, visitHdrPorts, visitPortList, visitNonansiPorts, visitNonansiPort,
    visitNonansiExpr, visitDotIndex, visitIdent, visitDotIndexRanges, splitTypeBase, visitModItems, visitModItem, visitGenItem, visitNonansiDecl,
    visitNetOrVar, visitVarIds, visitVarId, visitVarIdsRest, visitDataDecl, visitVarDecls, visitVarInit,
    visitDTypeOrImpl, visit_exVec, applyVDims, visitVDims, afterDims, identStr, idI, visitOptExp, bind, Except.bind, pure, Except.pure]
  exact ⟨_, rfl⟩

end Verif.Sv
