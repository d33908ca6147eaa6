import Verif.SvTextLemmas
import Verif.SvTextScan
import Verif.Sv.StmGrammar
import Verif.Spec.SvStmText
/-!
# Targets of assignments: where they end
-/
namespace Verif.Sv
open P Verif.Spec.SvLrm

/-! ## Cutting a text -/

/-- A rule which keeps the brackets together takes a text which ends where the rule stops, if the rest begins with a token that is not in the text. -/
theorem cut {S S' : ST → Bool} (hS : ∀ t, S' t = true → S t = true) {w R r u : List STok} {o z : STok}
    (hw : scan S (.run 0 0) w = some (.run 0 0)) (hu : Back S' (.run 0 0) (.run 0 0) u) (e : w ++ o :: R = u ++ z :: r)
    (ho : scan1 S' (.run 0 0) o.ty = none) (hz : scan1 S (.run 0 0) z.ty = none) : z :: r = o :: R := by
  rcases append_cases e.symm with ⟨x, h1, h2⟩ | ⟨y, v, h1, h2⟩
  · cases x with
    | nil => exact h2
    | cons x v =>
      exfalso
      have h3 := (List.cons.inj h2).1
      subst h3
      subst h1
      cases hs : scan S (.run 0 0) u with
      | none => rw [scan_append, hs] at hw; cases hw
      | some s =>
        have hs' := scan_mono hS u hs
        have : s = .run 0 0 := by
          rcases hu with hu | hu
          · rw [hu] at hs'; exact (Option.some.inj hs').symm
          · rw [hu] at hs'
            have := (Option.some.inj hs').symm
            subst this
            exact (not_free hw hs).elim
        subst this
        rw [scan_append, hs, Option.bind_some, scan_none hz] at hw
        cases hw
  · exfalso
    have h3 := (List.cons.inj h2).1
    subst h3
    subst h1
    unfold Back at hu
    rw [scan_append, scan_mono hS w hw, Option.bind_some, scan_none ho] at hu
    rcases hu with hu | hu <;> cases hu

/-- Everything stops outside of brackets. -/
def allS : ST → Bool := fun _ => true

/-- After an opening bracket the rule takes exactly the text to the closing bracket. -/
theorem cut_in {w Q r u : List STok} {c : STok} (hw : Ex allS dep w) (hc : isClose c.ty = true)
    (hQ : ∀ y s, Q = y :: s → isSpecial y.ty = false) (hu : Back allS (.run 1 0) (.run 0 0) u) (e : w ++ c :: Q = u ++ r) : r = Q := by
  have hw := hw 1 0 (by simp [dep])
  have hcs : scan1 allS (.run 1 0) c.ty = some (.run 0 0) := by cases h : c.ty <;> simp_all [isOpen, isClose, scan1, isSpecial]
  rcases append_cases e.symm with ⟨x, h1, h2⟩ | ⟨y, v, h1, h2⟩
  · exfalso
    subst h1
    rcases hu with hu | hu
    · rw [scan_append, hu, Option.bind_some] at hw
      cases x with
      | nil => cases hw
      | cons y x =>
        rw [scan] at hw
        by_cases hy : isSpecial y.ty = true
        · have : scan1 allS (.run 0 0) y.ty = some .free := by simp [scan1, hy]
          rw [this, Option.bind_some, scan_free] at hw; cases hw
        · have : scan1 allS (.run 0 0) y.ty = none := by simp [scan1, hy, allS]
          rw [this] at hw; cases hw
    · exact not_free hw hu
  · have h3 := (List.cons.inj h2).1
    have h4 := (List.cons.inj h2).2
    subst h3
    subst h1
    cases v with
    | nil => exact h4.symm
    | cons y v =>
      exfalso
      have hy := hQ y _ h4
      unfold Back at hu
      rw [scan_append, hw, Option.bind_some, scan_cons hcs, scan_none (t := y) (by simp [scan1, hy, allS])] at hu
      rcases hu with hu | hu <;> cases hu

/-! ## Targets -/

/-- The tokens of a target outside of brackets. -/
def isLvTok (t : ST) : Bool := isTypeTok t || t == .DOT || t == .LSQUARE_BR || t == .LBRACE || t == .APOSTROPHE_LBRACE
/-- All others stop. -/
def lvS : ST → Bool := fun t => !isLvTok t

structure LCfg (S : ST → Bool) (G : Nat → Nat → Prop) : Prop extends TCfg S G where
  dot : Ok1 S G .DOT
  brace : OpenOk S G .LBRACE
  tick : OpenOk S G .APOSTROPHE_LBRACE

theorem lcfg_lv : LCfg lvS anyG where
  tok t h := by
    intro d q _
    have h1 : isOpen t = false := by cases t <;> simp_all [isTypeTok, isOpen]
    have h2 : isClose t = false := by cases t <;> simp_all [isTypeTok, isClose]
    have h3 : t ≠ .QUESTIONMARK := by rintro rfl; cases h
    have h4 : t ≠ .COLON := by rintro rfl; cases h
    simp only [scan1, h1, h2, lvS, isLvTok, h, h3, h4]
    cases isSpecial t <;> simp
  sq := by intro d q _; simp [scan1, isSpecial, lvS, isLvTok, isOpen]
  dot := by intro d q _; left; simp [scan1, isSpecial, lvS, isLvTok, isOpen, isClose]
  brace := by intro d q _; simp [scan1, isSpecial, lvS, isLvTok, isOpen]
  tick := by intro d q _; simp [scan1, isSpecial, lvS, isLvTok, isOpen]

section
variable {S : ST → Bool} {G : Nat → Nat → Prop} {E : Env} (hE : Brk S E) (h : LCfg S G)
include hE h

theorem bitSelect_lv : Snd (Keep S G) (bitSelect E) :=
  open_keep h.sq fun _ => in_keep (hE.expression 0) fun _ => close_keep rfl fun _ => ret_keep _

theorem member_lv : Snd (Keep S G) (member E) :=
  bind_keep (tok_keep h.dot) fun _ => bind_keep (identifier_keep h.toTCfg) fun _ => bind_keep (many_keep (bitSelect_lv hE h)) fun _ =>
    ret_keep _

theorem hierSel_lv : Snd (Keep S G) (hierSel E) :=
  bind_keep (path_keep hE h.toTCfg) fun _ => bind_keep (many_keep (bitSelect_lv hE h)) fun _ => bind_keep (many_keep (member_lv hE h)) fun _ =>
    bind_keep (opt_keep (open_keep h.sq fun _ => in_keep (hE.expression 0) fun _ => in_keep (opt_keep plusMinus_dep) fun _ =>
      in_keep (tokd rfl rfl) fun _ => in_keep (hE.expression 0) fun _ => close_keep rfl fun _ => ret_keep _)) fun _ => ret_keep _

theorem streaming_lv : Snd (Keep S G) (streamingConcatenation E) :=
  open_keep h.brace fun _ => in_keep (texts_keep fun x hx => (cfg_dep S).neutral x (by revert x; decide)) fun _ =>
    in_keep (opt_keep (sliceSize_dep hE)) fun _ => by
      have h : Snd (Keep S dep) (tok .LBRACE >>= fun _ => sepBy .COMMA (streamExpression E) >>= fun _ => tok .RBRACE >>= fun _ => pure ()) :=
        open_keep (dep_open S rfl) fun _ => in_keep (sepBy_dep rfl rfl (streamExpression_dep hE)) fun _ => close_keep rfl fun _ => ret_keep _
      intro ts x hx
      obtain ⟨a1, r1, h1, hx⟩ := mem_bind.1 hx
      obtain ⟨a2, r2, h2, hx⟩ := mem_bind.1 hx
      obtain ⟨a3, r3, h3, hx⟩ := mem_bind.1 hx
      refine in_keep (f := fun _ => tok .RBRACE >>= fun _ => pure ()) h (fun _ => close_keep rfl fun _ => ret_keep ()) ts x ?_
      exact mem_bind.2 ⟨(), r3, mem_bind.2 ⟨a1, r1, h1, mem_bind.2 ⟨a2, r2, h2, mem_bind.2 ⟨a3, r3, h3, mem_pure.2 rfl⟩⟩⟩, hx⟩

theorem lvalue_lv : Snd (Keep S G) (lvalue E) := by
  alt_cases
  exact ⟨open_keep h.brace fun _ => in_keep (sepBy_dep rfl rfl hE.lvalue) fun _ => close_keep rfl fun _ => ret_keep _,
    map_keep (hierSel_lv hE h) _, bind_keep (opt_keep (patternType_keep hE h.toTCfg)) fun _ => open_keep h.tick fun _ =>
      in_keep (sepBy_dep rfl rfl hE.lvalue) fun _ => close_keep rfl fun _ => ret_keep _,
    bind_keep (streaming_lv hE h) fun _ => ret_keep _, by simp⟩
end

theorem lv_env (B : Rules) : ∀ n, Snd (Keep lvS anyG) (env B n).lvalue
  | 0 => Snd.fail
  | n + 1 => lvalue_lv (brk_env B lvS n) lcfg_lv
theorem hs_env (B : Rules) (n : Nat) : Snd (Keep lvS anyG) (hierSel (env B n)) := hierSel_lv (brk_env B lvS n) lcfg_lv

/-- Tokens which cannot be in a target outside of brackets. -/
def lvStop (t : ST) : Bool := lvS t && !isSpecial t
theorem lvStop_none {t : ST} (h : lvStop t = true) : scan1 lvS (.run 0 0) t = none := by
  simp only [lvStop, Bool.and_eq_true, Bool.not_eq_true'] at h
  exact outer_none (.inr (.inr h))

/-- The text of a target, or of a name. -/
def LvText (w : List STok) : Prop := scan lvS (.run 0 0) w = some (.run 0 0)

/-- What follows a target needs a token which is not in a target: then only the rest behind the whole text counts. -/
theorem lv_seq {α β : Type} {p : P α} (hp : Snd (Keep lvS anyG) p) {f : α → P β} {w R : List STok} {o : STok} (hw : LvText w)
    (ho : lvStop o.ty = true) (hN : ∀ l, NoAt (fun t => !lvStop t) (f l)) (hf : ∀ l, f l (o :: R) = []) : (p >>= f) (w ++ o :: R) = [] := by
  refine List.eq_nil_iff_forall_not_mem.2 fun x hx => ?_
  obtain ⟨l, r, h1, h2⟩ := mem_bind.1 hx
  cases r with
  | nil => rw [(hN l).nil] at h2; cases h2
  | cons z r =>
    by_cases hz : lvStop z.ty = true
    · obtain ⟨u, e, hu⟩ := hp _ _ h1
      rw [cut (fun _ h => h) hw (hu 0 0 trivial) e (lvStop_none ho) (lvStop_none hz), hf l] at h2
      cases h2
    · rw [(hN l).cons (y := z) (by simpa using hz)] at h2; cases h2

/-! ## Texts of targets -/

theorem ident_lv {i : Ident} {x : STok} (h : Ident.Tok i x) : LvText [x] := by
  obtain ⟨-, h⟩ := h
  unfold LvText
  split at h
  · rw [scan, h]; rfl
  · simp only [List.mem_cons, List.not_mem_nil, or_false] at h
    rcases h with h | h | h | h | h | h <;> · rw [scan, h]; rfl

theorem LvText.append {u v : List STok} (hu : LvText u) (hv : LvText v) : LvText (u ++ v) := by
  unfold LvText at *
  rw [scan_append, hu]; exact hv

theorem ids_lv : ∀ (l : List Ident) (w : List STok), idsToks l w → LvText w
  | [], _, h => by rw [idsToks, Spec.SvLrm.Empty] at h; subst h; rfl
  | i :: l, _, h => by
    obtain ⟨_, _, rfl, ⟨x, rfl, hx⟩, _, v2, rfl, ⟨y, rfl, hy⟩, h3⟩ := h
    have : LvText [x] := by unfold LvText; rw [scan, hx]; rfl
    exact this.append ((ident_lv hy).append (ids_lv l v2 h3))

theorem brk_lv {o c : STok} {u : List STok} (ho : o.ty = .LSQUARE_BR ∨ o.ty = .LBRACE) (hc : isClose c.ty = true) (hu : Ex lvS dep u) :
    LvText (o :: (u ++ [c])) := by
  unfold LvText
  have e2 : scan1 lvS (.run 1 0) c.ty = some (.run 0 0) := by
    cases h : c.ty <;> simp_all [isOpen, isClose, scan1, isSpecial]
  rw [scan_cons (s' := .run 1 0) (by rcases ho with h | h <;> rw [h] <;> rfl), scan_append, hu 1 0 (by simp [dep]), Option.bind_some,
    scan_cons e2]
  rfl

theorem callable_lv : ∀ (p : SPrim) (w : List STok), callable p = true → p.Toks w → LvText w
  | .name i l, w, _, h => by
    rw [SPrim.Toks] at h
    obtain ⟨_, v, rfl, ⟨x, rfl, hx⟩, h2⟩ := h
    exact (ident_lv hx).append (ids_lv l v h2)
  | .bit p e, w, hc, h => by
    rw [SPrim.Toks] at h
    obtain ⟨u, v, rfl, h1, _, v2, rfl, ⟨x, rfl, hx⟩, u3, _, rfl, h2, ⟨y, rfl, hy⟩⟩ := h
    rw [callable] at hc
    exact (callable_lv p u hc h1).append (brk_lv (.inl hx) (by rw [hy]; rfl) (exp_ex (xcfg_dep _) e _ h2))
  | .dot p i, w, hc, h => by
    rw [SPrim.Toks] at h
    obtain ⟨u, v, rfl, h1, _, v2, rfl, ⟨x, rfl, hx⟩, y, rfl, hy⟩ := h
    rw [callable] at hc
    have : LvText [x] := by unfold LvText; rw [scan, hx]; rfl
    exact (callable_lv p u hc h1).append (this.append (ident_lv hy))
  | .lit _, _, hc, _ => (by cases hc)
  | .paren _, _, hc, _ => (by cases hc)
  | .cast _ _, _, hc, _ => (by cases hc)
  | .part _ _ _ _, _, hc, _ => (by cases hc)
  | .concat _ _, _, hc, _ => (by cases hc)
  | .repl _ _ _, _, hc, _ => (by cases hc)
  | .pat _ _, _, hc, _ => (by cases hc)
  | .patKeys _ _, _, hc, _ => (by cases hc)
  | .sys _, _, hc, _ => (by cases hc)
  | .sysCall _ _, _, hc, _ => (by cases hc)
  | .call _ _, _, hc, _ => (by cases hc)

theorem element_callable : ∀ p, element p = true → callable p = true
  | .name _ _, _ => rfl
  | .bit p _, h => by rw [element] at h; rw [callable]; exact element_callable p h
  | .lit _, hc => (by cases hc)
  | .dot _ _, hc => (by cases hc)
  | .paren _, hc => (by cases hc)
  | .cast _ _, hc => (by cases hc)
  | .part _ _ _ _, hc => (by cases hc)
  | .concat _ _, hc => (by cases hc)
  | .repl _ _ _, hc => (by cases hc)
  | .pat _ _, hc => (by cases hc)
  | .patKeys _ _, hc => (by cases hc)
  | .sys _, hc => (by cases hc)
  | .sysCall _ _, hc => (by cases hc)
  | .call _ _, hc => (by cases hc)

/-- The shapes of a target. -/
theorem target_cases {p : SPrim} (h : target p = true) : element p = true ∨ (∃ q k a b, p = .part q k a b ∧ element q = true) ∨
    ∃ e l, p = .concat e l ∧ l ≠ [] ∧ targetE e = true ∧ targetEs l = true := by
  cases p with
  | name i l => exact .inl rfl
  | bit p e => rw [target] at h; exact .inl (by rw [element]; exact h)
  | part p k a b => rw [target] at h; exact .inr (.inl ⟨p, k, a, b, rfl, h⟩)
  | concat e l =>
    rw [target] at h
    simp only [Bool.and_eq_true, Bool.not_eq_true'] at h
    exact .inr (.inr ⟨e, l, rfl, fun hl => (by subst hl; cases h.1.1), h.1.2, h.2⟩)
  | _ => simp [target] at h

theorem target_lv {p : SPrim} {w : List STok} (hp : target p = true) (h : p.Toks w) : LvText w := by
  rcases target_cases hp with hp | ⟨q, k, a, b, rfl, hq⟩ | ⟨e, l, rfl, -, -, -⟩
  · exact callable_lv p w (element_callable p hp) h
  · rw [SPrim.Toks] at h
    obtain ⟨u, v, rfl, h1, _, v2, rfl, ⟨x, rfl, hx⟩, u3, _, rfl, h3, u4, _, rfl, h4, u5, _, rfl, h5, ⟨y, rfl, hy⟩⟩ := h
    refine (callable_lv q u (element_callable q hq) h1).append ?_
    have := brk_lv (c := y) (.inl hx) (by rw [hy]; rfl) (((exp_ex (xcfg_dep _) a _ h3).append (part_ex k _ h4)).append
      (exp_ex (xcfg_dep _) b _ h5))
    simpa using this
  · rw [SPrim.Toks] at h
    obtain ⟨_, v, rfl, ⟨x, rfl, hx⟩, u2, _, rfl, h2, u3, _, rfl, h3, ⟨y, rfl, hy⟩⟩ := h
    have := brk_lv (c := y) (.inr hx) (by rw [hy]; rfl) ((exp_ex (xcfg_dep _) e _ h2).append (exps_ex l _ h3))
    simpa using this

end Verif.Sv
