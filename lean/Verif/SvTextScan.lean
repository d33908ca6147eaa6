import Verif.SvScanLemmas
import Verif.Spec.SvText
/-!
# The tokens of an expression: brackets
-/
namespace Verif.Sv
open P Verif.Spec.SvLrm

/-- The tokens leave the states of `G` as they are. -/
def Ex (S : ST → Bool) (G : Nat → Nat → Prop) (w : List STok) : Prop := ∀ d q, G d q → scan S (.run d q) w = some (.run d q)

/-- Tokens of the texts outside of brackets. -/
def isPlain (t : ST) : Bool := isNeutral t && !isSpecial t && t != .COMMA && t != .SEMI && t != .KW_NEW

/-- A comma stops. -/
def commaS : ST → Bool := fun t => t == .COMMA

structure XCfg (S : ST → Bool) (G : Nat → Nat → Prop) : Prop where
  plain : ∀ t, isPlain t = true → ∀ d q, G d q → scan1 S (.run d q) t = some (.run d q)
  opens : ∀ t, isOpen t = true → OpenOk S G t
  quest : ∀ d q, G d q → ∃ d' q', G d' q' ∧ scan1 S (.run d q) .QUESTIONMARK = some (.run d' q') ∧
    scan1 S (.run d' q') .COLON = some (.run d q)

theorem xcfg_dep (S : ST → Bool) : XCfg S dep where
  plain t h d q hd := by
    simp only [isPlain, isNeutral, Bool.and_eq_true, Bool.not_eq_true'] at h
    simp only [dep] at hd
    simp [scan1, h.1.1.1.1.1.1.1.1.1, h.1.1.1.1.1.1.1.1.2, h.1.1.1.2, hd]
  opens := (cfg_dep S).opens
  quest := (cfg_dep S).quest

theorem xcfg_comma : XCfg commaS anyG where
  plain t h d q _ := by
    simp only [isPlain, isNeutral, Bool.and_eq_true, Bool.not_eq_true', bne_iff_ne, ne_eq] at h
    simp [scan1, h.1.1.1.1.1.1.1.1.1, h.1.1.1.1.1.1.1.1.2, h.1.1.1.2, h.1.1.2, h.1.1.1.1.1.1.2, h.1.1.1.1.1.1.1.2, commaS]
  opens t h := by
    intro d q _
    cases t <;> simp_all [isOpen, scan1, isSpecial, commaS]
  quest d q _ := by
    by_cases h : d = 0
    · subst h
      exact ⟨0, q + 1, trivial, by simp [scan1, isSpecial, isOpen, isClose, commaS], by simp [scan1, isSpecial, isOpen, isClose, commaS]⟩
    · exact ⟨d, q, trivial, by simp [scan1, isSpecial, isOpen, isClose, h], by simp [scan1, isSpecial, isOpen, isClose, h]⟩

/-- Neither `;` nor `new` stands in an expression. -/
def semiS : ST → Bool := fun t => t == .SEMI || t == .KW_NEW

theorem xcfg_semi : XCfg semiS anyG where
  plain t h d q _ := by
    simp only [isPlain, isNeutral, Bool.and_eq_true, Bool.not_eq_true', bne_iff_ne, ne_eq] at h
    simp [scan1, h.1.1.1.1.1.1.1.1.1, h.1.1.1.1.1.1.1.1.2, h.1.1.1.2, h.1.2, h.2, h.1.1.1.1.1.1.2, h.1.1.1.1.1.1.1.2, semiS]
  opens t h := by
    intro d q _
    cases t <;> simp_all [isOpen, scan1, isSpecial, semiS]
  quest d q _ := by
    by_cases h : d = 0
    · subst h
      exact ⟨0, q + 1, trivial, by simp [scan1, isSpecial, isOpen, isClose, semiS], by simp [scan1, isSpecial, isOpen, isClose, semiS]⟩
    · exact ⟨d, q, trivial, by simp [scan1, isSpecial, isOpen, isClose, h], by simp [scan1, isSpecial, isOpen, isClose, h]⟩

section
variable {S : ST → Bool} {G : Nat → Nat → Prop}

theorem Ex.nil : Ex S G [] := fun _ _ _ => rfl
theorem Ex.append {u v : List STok} (hu : Ex S G u) (hv : Ex S G v) : Ex S G (u ++ v) := by
  intro d q h; rw [scan_append, hu d q h]; exact hv d q h
theorem Ex.tok (X : XCfg S G) {x : STok} {t : ST} (hx : x.ty = t) (h : isPlain t = true) : Ex S G [x] := by
  intro d q hg; rw [scan, hx, X.plain t h d q hg]; rfl
/-- A token in brackets. -/
theorem Ex.tokD {x : STok} {t : ST} (hx : x.ty = t) (h1 : isOpen t = false) (h2 : isClose t = false) (h3 : isSpecial t = false) :
    Ex S dep [x] := by
  intro d q hd
  simp only [dep] at hd
  have : scan1 S (.run d q) x.ty = some (.run d q) := by rw [hx]; simp [scan1, h1, h2, h3, hd]
  rw [scan, this]; rfl
theorem Ex.brk (X : XCfg S G) {o c : STok} {t t' : ST} {u : List STok} (ho : o.ty = t) (hc : c.ty = t') (h1 : isOpen t = true)
    (h2 : isClose t' = true) (hu : Ex S dep u) : Ex S G (o :: (u ++ [c])) := by
  intro d q hg
  have e1 : scan1 S (.run d q) o.ty = some (.run (d + 1) q) := by rw [ho]; exact X.opens t h1 d q hg
  have e2 : scan1 S (.run (d + 1) q) c.ty = some (.run d q) := by
    rw [hc]; cases t' <;> simp_all [isOpen, isClose, scan1, isSpecial]
  rw [scan_cons e1, scan_append, hu _ _ (Nat.succ_ne_zero d), Option.bind_some, scan_cons e2]
  rfl
end

theorem ident_plain {i : Ident} {x : STok} (h : Ident.Tok i x) : isPlain x.ty = true := by
  obtain ⟨-, h⟩ := h
  split at h
  · rw [h]; rfl
  · simp only [List.mem_cons, List.not_mem_nil, or_false] at h
    rcases h with h | h | h | h | h | h <;> · rw [h]; rfl

section
variable {S : ST → Bool} {G : Nat → Nat → Prop}

theorem ident_ex (X : XCfg S G) {i : Ident} {w : List STok} (h : OneP (Ident.Tok i) w) : Ex S G w := by
  obtain ⟨x, rfl, hx⟩ := h
  exact .tok X rfl (ident_plain hx)

theorem one_ex (X : XCfg S G) {t : ST} {w : List STok} (h : One t w) (ht : isPlain t = true) : Ex S G w := by
  obtain ⟨x, rfl, hx⟩ := h
  exact .tok X hx ht

theorem oneT_ex (X : XCfg S G) {t : ST} {s : Str} {w : List STok} (h : OneT t s w) (ht : isPlain t = true) : Ex S G w := by
  obtain ⟨x, rfl, hx, -⟩ := h
  exact .tok X hx ht

theorem oneD {t : ST} {w : List STok} (h : One t w) (h1 : isOpen t = false) (h2 : isClose t = false) (h3 : isSpecial t = false) :
    Ex S dep w := by
  obtain ⟨x, rfl, hx⟩ := h
  exact .tokD hx h1 h2 h3

theorem ids_ex (X : XCfg S G) : ∀ (l : List Ident) (w : List STok), idsToks l w → Ex S G w
  | [], _, h => by rw [idsToks, Spec.SvLrm.Empty] at h; subst h; exact .nil
  | i :: l, _, h => by
    obtain ⟨u, v, rfl, h1, u2, v2, rfl, h2, h3⟩ := h
    exact (one_ex X h1 rfl).append ((ident_ex X h2).append (ids_ex X l _ h3))

theorem lit_ex (X : XCfg S G) : ∀ (l : Lit) (w : List STok), Lit.Toks l w → Ex S G w
  | .time _, _, h => oneT_ex X h rfl
  | .unbased _, _, h => oneT_ex X h rfl
  | .str _, _, h => oneT_ex X h rfl
  | .integral (.basedWithSize _), _, h => oneT_ex X h rfl
  | .integral (.anyBased none _), _, h => oneT_ex X h rfl
  | .integral (.anyBased (some _) _), _, h => by
    obtain ⟨u, v, rfl, h1, h2⟩ := h
    exact (oneT_ex X h1 rfl).append (oneT_ex X h2 rfl)
  | .integral (.unsigned _), _, h => oneT_ex X h rfl
  | .real _, _, h => by
    obtain ⟨x, rfl, hx | hx, -⟩ := h
    · exact .tok X hx rfl
    · exact .tok X hx rfl
  | .null, _, h => one_ex X h rfl
  | .dolar, _, h => one_ex X h rfl

theorem brk_ex (X : XCfg S G) {o c : ST} {P : List STok → Prop} {w : List STok} (h : Cat (One o) (Cat P (One c)) w) (ho : isOpen o = true)
    (hc : isClose c = true) (hp : ∀ u, P u → Ex S dep u) : Ex S G w := by
  obtain ⟨u, v, rfl, ⟨x, rfl, hx⟩, u2, v2, rfl, h2, ⟨y, rfl, hy⟩⟩ := h
  exact .brk X hx hy ho hc (hp _ h2)

theorem part_ex (k : PartKind) (w : List STok) (h : PartKind.Toks k w) : Ex S dep w := by
  cases k with
  | range => exact oneD h rfl rfl rfl
  | up => obtain ⟨u, v, rfl, h1, h2⟩ := h; exact (oneD h1 rfl rfl rfl).append (oneD h2 rfl rfl rfl)
  | down => obtain ⟨u, v, rfl, h1, h2⟩ := h; exact (oneD h1 rfl rfl rfl).append (oneD h2 rfl rfl rfl)

theorem unop_plain (o : UnOp) : isPlain (UnOp.ty o) = true := by cases o <;> rfl
theorem binop_plain (o : BinOp) : isPlain (BinOp.ty o) = true := by cases o <;> rfl

theorem cat_assoc {p q r : List STok → Prop} {w : List STok} (h : Cat p (Cat q r) w) : Cat (Cat p q) r w := by
  obtain ⟨u, v, rfl, h1, u2, v2, rfl, h2, h3⟩ := h
  exact ⟨u ++ u2, v2, by simp, ⟨u, u2, rfl, h1, h2⟩, h3⟩

theorem cat_ex {p q : List STok → Prop} {w : List STok} (h : Cat p q w) (hp : ∀ u, p u → Ex S G u) (hq : ∀ u, q u → Ex S G u) : Ex S G w := by
  obtain ⟨u, v, rfl, h1, h2⟩ := h
  exact (hp _ h1).append (hq _ h2)

mutual
theorem exp_ex {G : Nat → Nat → Prop} (X : XCfg S G) : ∀ (e : SExp) (w : List STok), e.Toks w → Ex S G w
  | .prim p, w, h => by rw [SExp.Toks] at h; exact prim_ex X p w h
  | .un o p, w, h => by
    rw [SExp.Toks] at h
    exact cat_ex h (fun u h => one_ex X h (unop_plain o)) (prim_ex X p)
  | .bin a o b, w, h => by
    rw [SExp.Toks] at h
    exact cat_ex h.2 (exp_ex X a) fun u h => cat_ex h (fun u h => one_ex X h (binop_plain o)) (exp_ex X b)
  | .cond c t e, w, h => by
    rw [SExp.Toks] at h
    refine cat_ex h.2.2 (exp_ex X c) fun u h => ?_
    obtain ⟨_, _, rfl, ⟨x, rfl, hx⟩, u2, _, rfl, h2, _, v3, rfl, ⟨y, rfl, hy⟩, h3⟩ := h
    have h2 := exp_ex X t u2 h2
    have h3 := exp_ex X e v3 h3
    intro d q hg
    obtain ⟨d', q', hg', e1, e2⟩ := X.quest d q hg
    rw [List.singleton_append, scan_cons (by rw [hx]; exact e1), scan_append, h2 d' q' hg', Option.bind_some, List.singleton_append,
      scan_cons (by rw [hy]; exact e2)]
    exact h3 d q hg
theorem prim_ex {G : Nat → Nat → Prop} (X : XCfg S G) : ∀ (p : SPrim) (w : List STok), p.Toks w → Ex S G w
  | .lit l, w, h => by rw [SPrim.Toks] at h; exact lit_ex X l w h
  | .name i l, w, h => by
    rw [SPrim.Toks] at h
    exact cat_ex h (fun _ h => ident_ex X h) (ids_ex X l)
  | .paren e, w, h => by
    rw [SPrim.Toks] at h
    exact brk_ex X h rfl rfl (exp_ex (xcfg_dep S) e)
  | .cast p e, w, h => by
    rw [SPrim.Toks] at h
    exact cat_ex h (prim_ex X p) fun _ h => cat_ex h (fun _ h => one_ex X h rfl) fun _ h => brk_ex X h rfl rfl (exp_ex (xcfg_dep S) e)
  | .bit p e, w, h => by
    rw [SPrim.Toks] at h
    exact cat_ex h (prim_ex X p) fun _ h => brk_ex X h rfl rfl (exp_ex (xcfg_dep S) e)
  | .part p k a b, w, h => by
    rw [SPrim.Toks] at h
    refine cat_ex h (prim_ex X p) fun _ h => ?_
    obtain ⟨u, v, rfl, h1, h2⟩ := h
    exact brk_ex X ⟨u, v, rfl, h1, cat_assoc (cat_assoc (by
        obtain ⟨u, v, rfl, h3, u4, v4, rfl, h4, h5⟩ := h2
        exact ⟨u, _, rfl, h3, u4, v4, rfl, h4, h5⟩))⟩ rfl rfl fun _ h =>
      cat_ex h (fun _ h => cat_ex h (exp_ex (xcfg_dep S) a) (part_ex k)) (exp_ex (xcfg_dep S) b)
  | .dot p i, w, h => by
    rw [SPrim.Toks] at h
    exact cat_ex h (prim_ex X p) fun _ h => cat_ex h (fun _ h => one_ex X h rfl) fun _ h => ident_ex X h
  | .concat e l, w, h => by
    rw [SPrim.Toks] at h
    obtain ⟨u, v, rfl, h1, h2⟩ := h
    exact brk_ex X ⟨u, v, rfl, h1, cat_assoc h2⟩ rfl rfl fun _ h => cat_ex h (exp_ex (xcfg_dep S) e) (exps_ex l)
  | .repl n e l, w, h => by
    rw [SPrim.Toks] at h
    obtain ⟨u, v, rfl, h1, u2, v2, rfl, h2, u3, v3, rfl, h3, u4, v4, rfl, h4, u5, v5, rfl, h5, u6, v6, rfl, h6, h7⟩ := h
    have hi : Ex S dep (u3 ++ ((u4 ++ u5) ++ u6)) := brk_ex (xcfg_dep S) ⟨u3, _, rfl, h3, _, _, rfl, (⟨u4, u5, rfl, h4, h5⟩ : Cat e.Toks (expsToks l) _), h6⟩ rfl rfl fun _ h =>
      cat_ex h (exp_ex (xcfg_dep S) e) (exps_ex l)
    exact brk_ex X (P := Ex S dep) ⟨u, (u2 ++ (u3 ++ ((u4 ++ u5) ++ u6))) ++ v6, by simp, h1, _, _, rfl,
      (exp_ex (xcfg_dep S) n _ h2).append hi, h7⟩ rfl rfl fun _ h => h
  | .pat e l, w, h => by
    rw [SPrim.Toks] at h
    obtain ⟨u, v, rfl, h1, h2⟩ := h
    exact brk_ex X ⟨u, v, rfl, h1, cat_assoc h2⟩ rfl rfl fun _ h => cat_ex h (exp_ex (xcfg_dep S) e) (exps_ex l)
  | .patKeys k l, w, h => by
    rw [SPrim.Toks] at h
    obtain ⟨u, v, rfl, h1, h2⟩ := h
    exact brk_ex X ⟨u, v, rfl, h1, cat_assoc h2⟩ rfl rfl fun _ h => cat_ex h (kv_ex k) (kvs_ex l)
  | .sys f, w, h => by rw [SPrim.Toks] at h; exact oneT_ex X h rfl
  | .sysCall f l, w, h => by
    rw [SPrim.Toks] at h
    exact cat_ex h.2 (fun _ h => oneT_ex X h rfl) fun _ h => brk_ex X h rfl rfl (args_ex l)
  | .call p l, w, h => by
    rw [SPrim.Toks] at h
    exact cat_ex h.2.2 (prim_ex X p) fun _ h => brk_ex X h rfl rfl (args_ex l)
theorem exps_ex : ∀ (l : List SExp) (w : List STok), expsToks l w → Ex S dep w
  | [], w, h => by rw [expsToks, Spec.SvLrm.Empty] at h; subst h; exact .nil
  | e :: l, w, h => by
    rw [expsToks] at h
    exact cat_ex h (fun _ h => oneD h rfl rfl rfl) fun _ h => cat_ex h (exp_ex (xcfg_dep S) e) (exps_ex l)
theorem kv_ex : ∀ (k : SKV) (w : List STok), k.Toks w → Ex S dep w
  | .field i e, w, h => by
    rw [SKV.Toks] at h
    exact cat_ex h (fun _ h => ident_ex (xcfg_dep S) h) fun _ h => cat_ex h (fun _ h => oneD h rfl rfl rfl) (exp_ex (xcfg_dep S) e)
  | .dflt e, w, h => by
    rw [SKV.Toks] at h
    exact cat_ex h (fun _ h => oneD h rfl rfl rfl) fun _ h => cat_ex h (fun _ h => oneD h rfl rfl rfl) (exp_ex (xcfg_dep S) e)
theorem kvs_ex : ∀ (l : List SKV) (w : List STok), kvsToks l w → Ex S dep w
  | [], w, h => by rw [kvsToks, Spec.SvLrm.Empty] at h; subst h; exact .nil
  | e :: l, w, h => by
    rw [kvsToks] at h
    exact cat_ex h (fun _ h => oneD h rfl rfl rfl) fun _ h => cat_ex h (kv_ex e) (kvs_ex l)
theorem arg_ex : ∀ (a : SArg) (w : List STok), a.Toks w → Ex S dep w
  | .omit, w, h => by rw [SArg.Toks, Spec.SvLrm.Empty] at h; subst h; exact .nil
  | .pos e, w, h => by rw [SArg.Toks] at h; exact exp_ex (xcfg_dep S) e w h
  | .named i e, w, h => by
    rw [SArg.Toks] at h
    exact cat_ex h (fun _ h => oneD h rfl rfl rfl) fun _ h => cat_ex h (fun _ h => ident_ex (xcfg_dep S) h) fun _ h =>
      brk_ex (xcfg_dep S) h rfl rfl (exp_ex (xcfg_dep S) e)
  | .namedEmpty i, w, h => by
    rw [SArg.Toks] at h
    refine cat_ex h (fun _ h => oneD h rfl rfl rfl) fun _ h => cat_ex h (fun _ h => ident_ex (xcfg_dep S) h) fun _ h => ?_
    obtain ⟨u, v, rfl, h1, h2⟩ := h
    exact brk_ex (xcfg_dep S) (P := Spec.SvLrm.Empty) ⟨u, v, rfl, h1, [], v, rfl, rfl, h2⟩ rfl rfl fun _ h => by rw [Spec.SvLrm.Empty] at h; subst h; exact .nil
theorem args_ex : ∀ (l : List SArg) (w : List STok), argsToks l w → Ex S dep w
  | [], w, h => by rw [argsToks, Spec.SvLrm.Empty] at h; subst h; exact .nil
  | e :: l, w, h => by
    rw [argsToks] at h
    exact cat_ex h (arg_ex e) (more_ex l)
theorem more_ex : ∀ (l : List SArg) (w : List STok), moreToks l w → Ex S dep w
  | [], w, h => by rw [moreToks, Spec.SvLrm.Empty] at h; subst h; exact .nil
  | e :: l, w, h => by
    rw [moreToks] at h
    exact cat_ex h (fun _ h => oneD h rfl rfl rfl) fun _ h => cat_ex h (arg_ex e) (more_ex l)
end

end

/-! ## Expressions which look like data types -/

/-- A name with dimensions. -/
def tyP : SPrim → Bool
  | .name _ _ => true
  | .bit p _ => tyP p
  | .part p _ _ _ => tyP p
  | _ => false
def tyE : SExp → Bool
  | .prim p => tyP p
  | _ => false

/-- What the scan for tokens of types says. -/
def tyScan (b : Bool) : Option Scan := if b then some (.run 0 0) else none

theorem typeS_stop {x : STok} {t : ST} (hx : x.ty = t) (h : typeS t = true) (h2 : isSpecial t = false) (w : List STok) :
    scan typeS (.run 0 0) (x :: w) = none := by
  rw [scan, hx]; simp [scan1, h, h2]

theorem ident_type {i : Ident} {x : STok} (h : Ident.Tok i x) : scan typeS (.run 0 0) [x] = some (.run 0 0) := by
  obtain ⟨-, h⟩ := h
  split at h
  · rw [scan, h]; rfl
  · simp only [List.mem_cons, List.not_mem_nil, or_false] at h
    rcases h with h | h | h | h | h | h <;> · rw [scan, h]; rfl

theorem ids_type : ∀ (l : List Ident) (w : List STok), idsToks l w → scan typeS (.run 0 0) w = some (.run 0 0)
  | [], _, h => by rw [idsToks, Spec.SvLrm.Empty] at h; subst h; rfl
  | i :: l, _, h => by
    obtain ⟨_, _, rfl, ⟨x, rfl, hx⟩, _, v2, rfl, ⟨y, rfl, hy⟩, h3⟩ := h
    rw [List.singleton_append, scan_cons (s' := .run 0 0) (by rw [hx]; rfl), scan_append, ident_type hy]
    exact ids_type l v2 h3

theorem lit_type : ∀ (l : Lit) (w : List STok), Lit.Toks l w → scan typeS (.run 0 0) w = none
  | .time _, _, h => by obtain ⟨x, rfl, hx, -⟩ := h; exact typeS_stop hx rfl rfl _
  | .unbased _, _, h => by obtain ⟨x, rfl, hx, -⟩ := h; exact typeS_stop hx rfl rfl _
  | .str _, _, h => by obtain ⟨x, rfl, hx, -⟩ := h; exact typeS_stop hx rfl rfl _
  | .integral (.basedWithSize _), _, h => by obtain ⟨x, rfl, hx, -⟩ := h; exact typeS_stop hx rfl rfl _
  | .integral (.anyBased none _), _, h => by obtain ⟨x, rfl, hx, -⟩ := h; exact typeS_stop hx rfl rfl _
  | .integral (.anyBased (some _) _), _, h => by
    obtain ⟨_, v, rfl, ⟨x, rfl, hx, -⟩, h2⟩ := h
    exact typeS_stop hx rfl rfl _
  | .integral (.unsigned _), _, h => by obtain ⟨x, rfl, hx, -⟩ := h; exact typeS_stop hx rfl rfl _
  | .real _, _, h => by
    obtain ⟨x, rfl, hx | hx, -⟩ := h
    · exact typeS_stop hx rfl rfl _
    · exact typeS_stop hx rfl rfl _
  | .null, _, h => by obtain ⟨x, rfl, hx⟩ := h; exact typeS_stop hx rfl rfl _
  | .dolar, _, h => by obtain ⟨x, rfl, hx⟩ := h; exact typeS_stop hx rfl rfl _

/-- After something the scan has read, a token that stops it. -/
theorem then_stop {b : Bool} {u v : List STok} (hu : scan typeS (.run 0 0) u = tyScan b) (hv : scan typeS (.run 0 0) v = none) :
    scan typeS (.run 0 0) (u ++ v) = none := by
  rw [scan_append, hu]
  cases b
  · rfl
  · exact hv

/-- After something the scan has read, a pair of square brackets. -/
theorem then_square {b : Bool} {u v : List STok} {o c : STok} (hu : scan typeS (.run 0 0) u = tyScan b) (ho : o.ty = .LSQUARE_BR)
    (hc : c.ty = .RSQUARE_BR) (hv : Ex typeS dep v) : scan typeS (.run 0 0) (u ++ o :: (v ++ [c])) = tyScan b := by
  rw [scan_append, hu]
  cases b
  · rfl
  · rw [tyScan, if_pos rfl, Option.bind_some, scan_cons (s' := .run 1 0) (by rw [ho]; rfl), scan_append,
      hv 1 0 (by simp [dep]), Option.bind_some, scan_cons (s' := .run 0 0) (by rw [hc]; rfl)]
    rfl

theorem prim_type : ∀ (p : SPrim) (w : List STok), p.Toks w → scan typeS (.run 0 0) w = tyScan (tyP p)
  | .lit l, w, h => by rw [SPrim.Toks] at h; exact lit_type l w h
  | .name i l, w, h => by
    rw [SPrim.Toks] at h
    obtain ⟨_, v, rfl, ⟨x, rfl, hx⟩, h2⟩ := h
    rw [scan_append, ident_type hx]
    exact ids_type l v h2
  | .paren e, w, h => by
    rw [SPrim.Toks] at h
    obtain ⟨_, v, rfl, ⟨x, rfl, hx⟩, h2⟩ := h
    exact typeS_stop hx rfl rfl _
  | .cast p e, w, h => by
    rw [SPrim.Toks] at h
    obtain ⟨u, v, rfl, h1, _, v2, rfl, ⟨x, rfl, hx⟩, h2⟩ := h
    exact then_stop (prim_type p u h1) (typeS_stop hx rfl rfl _)
  | .bit p e, w, h => by
    rw [SPrim.Toks] at h
    obtain ⟨u, v, rfl, h1, _, v2, rfl, ⟨x, rfl, hx⟩, u3, _, rfl, h2, ⟨y, rfl, hy⟩⟩ := h
    rw [tyP]
    exact then_square (prim_type p u h1) hx hy (exp_ex (xcfg_dep _) e _ h2)
  | .part p k a b, w, h => by
    rw [SPrim.Toks] at h
    obtain ⟨u, v, rfl, h1, _, v2, rfl, ⟨x, rfl, hx⟩, u3, _, rfl, h3, u4, _, rfl, h4, u5, _, rfl, h5, ⟨y, rfl, hy⟩⟩ := h
    rw [tyP]
    have := then_square (prim_type p u h1) hx hy (((exp_ex (xcfg_dep _) a _ h3).append (part_ex k _ h4)).append
      (exp_ex (xcfg_dep _) b _ h5))
    simpa using this
  | .dot p i, w, h => by
    rw [SPrim.Toks] at h
    obtain ⟨u, v, rfl, h1, _, v2, rfl, ⟨x, rfl, hx⟩, h2⟩ := h
    exact then_stop (prim_type p u h1) (typeS_stop hx rfl rfl _)
  | .concat e l, w, h => by
    rw [SPrim.Toks] at h
    obtain ⟨_, v, rfl, ⟨x, rfl, hx⟩, h2⟩ := h
    exact typeS_stop hx rfl rfl _
  | .repl n e l, w, h => by
    rw [SPrim.Toks] at h
    obtain ⟨_, v, rfl, ⟨x, rfl, hx⟩, h2⟩ := h
    exact typeS_stop hx rfl rfl _
  | .pat e l, w, h => by
    rw [SPrim.Toks] at h
    obtain ⟨_, v, rfl, ⟨x, rfl, hx⟩, h2⟩ := h
    exact typeS_stop hx rfl rfl _
  | .patKeys k l, w, h => by
    rw [SPrim.Toks] at h
    obtain ⟨_, v, rfl, ⟨x, rfl, hx⟩, h2⟩ := h
    exact typeS_stop hx rfl rfl _
  | .sys f, w, h => by
    rw [SPrim.Toks] at h
    obtain ⟨x, rfl, hx, -⟩ := h
    exact typeS_stop hx rfl rfl _
  | .sysCall f l, w, h => by
    rw [SPrim.Toks] at h
    obtain ⟨-, _, v, rfl, ⟨x, rfl, hx, -⟩, h2⟩ := h
    exact typeS_stop hx rfl rfl _
  | .call p l, w, h => by
    rw [SPrim.Toks] at h
    obtain ⟨-, -, u, v, rfl, h1, _, v2, rfl, ⟨x, rfl, hx⟩, h2⟩ := h
    exact then_stop (prim_type p u h1) (typeS_stop hx rfl rfl _)

theorem unop_stop (o : UnOp) : typeS (UnOp.ty o) = true ∧ isSpecial (UnOp.ty o) = false := by cases o <;> exact ⟨rfl, rfl⟩
theorem binop_stop (o : BinOp) : typeS (BinOp.ty o) = true ∧ isSpecial (BinOp.ty o) = false := by cases o <;> exact ⟨rfl, rfl⟩

theorem exp_type : ∀ (e : SExp) (w : List STok), e.Toks w → scan typeS (.run 0 0) w = tyScan (tyE e)
  | .prim p, w, h => by rw [SExp.Toks] at h; exact prim_type p w h
  | .un o p, w, h => by
    rw [SExp.Toks] at h
    obtain ⟨_, v, rfl, ⟨x, rfl, hx⟩, h2⟩ := h
    exact typeS_stop hx (unop_stop o).1 (unop_stop o).2 _
  | .bin a o b, w, h => by
    rw [SExp.Toks] at h
    obtain ⟨-, u, v, rfl, h1, _, v2, rfl, ⟨x, rfl, hx⟩, h2⟩ := h
    exact then_stop (exp_type a u h1) (typeS_stop hx (binop_stop o).1 (binop_stop o).2 _)
  | .cond c t e, w, h => by
    rw [SExp.Toks] at h
    obtain ⟨-, -, u, v, rfl, h1, _, v2, rfl, ⟨x, rfl, hx⟩, h2⟩ := h
    exact then_stop (exp_type c u h1) (typeS_stop hx rfl rfl _)

/-! ## No rule goes on behind the end -/

/-- A token at which neither an expression nor a data type goes on. -/
def isEnd (t : ST) : Bool := isClose t || t == .COLON || t == .COMMA

/-- Two ways to cut a list. -/
theorem append_cases {α : Type} {u v w r : List α} (h : u ++ r = w ++ v) :
    (∃ x, w = u ++ x ∧ r = x ++ v) ∨ ∃ y z, u = w ++ y :: z ∧ v = y :: (z ++ r) := by
  rcases List.append_eq_append_iff.1 h with ⟨x, h1, h2⟩ | ⟨x, h1, h2⟩
  · exact .inl ⟨x, h1, h2⟩
  · cases x with
    | nil => simp only [List.append_nil, List.nil_append] at h1 h2; exact .inl ⟨[], by simp [h1], by simp [h2]⟩
    | cons y z => exact .inr ⟨y, z, h1, h2⟩

theorem xcfg_any : XCfg noS anyG where
  plain t h d q _ := by
    simp only [isPlain, isNeutral, Bool.and_eq_true, Bool.not_eq_true', bne_iff_ne, ne_eq] at h
    simp [scan1, h.1.1.1.1.1.1.1.1.1, h.1.1.1.1.1.1.1.1.2, h.1.1.1.2, h.1.1.1.1.1.1.2, h.1.1.1.1.1.1.1.2, noS]
  opens t h := by
    intro d q _
    cases t <;> simp_all [isOpen, scan1, isSpecial, noS]
  quest := cfg_any.quest

theorem scan1_mono {S S' : ST → Bool} (hS : ∀ t, S' t = true → S t = true) {s s' : Scan} {t : ST} (h : scan1 S s t = some s') :
    scan1 S' s t = some s' := by
  cases s with
  | free => exact h
  | run d q =>
    simp only [scan1] at h ⊢
    by_cases h1 : isSpecial t = true
    · simpa [h1] using h
    · simp only [h1] at h ⊢
      by_cases h2 : d = 0 ∧ S t = true
      · simp [h2] at h
      · have h3 : ¬(d = 0 ∧ S' t = true) := fun h => h2 ⟨h.1, hS t h.2⟩
        simp only [h2, h3, if_false] at h ⊢
        exact h

theorem scan_mono {S S' : ST → Bool} (hS : ∀ t, S' t = true → S t = true) : ∀ (u : List STok) {s s' : Scan}, scan S s u = some s' →
    scan S' s u = some s'
  | [], _, _, h => h
  | t :: u, s, s', h => by
    rw [scan] at h ⊢
    cases h1 : scan1 S s t.ty with
    | none => rw [h1] at h; cases h
    | some x => rw [h1] at h; rw [scan1_mono hS h1]; exact scan_mono hS u h

/-- If a text keeps the state, then a beginning of it is not behind a special token. -/
theorem not_free {S : ST → Bool} {u v : List STok} {d q : Nat} {s : Scan} (h : scan S s (u ++ v) = some (.run d q))
    (hu : scan S s u = some .free) : False := by
  rw [scan_append, hu, Option.bind_some, scan_free] at h
  cases h

theorem comma_type {t : ST} (h : commaS t = true) : typeS t = true := by
  simp only [commaS, beq_iff_eq] at h; subst h; rfl

/-- What stops outside of brackets. -/
theorem outer_none {S : ST → Bool} {t : ST} (h : isClose t = true ∨ t = .COLON ∨ S t = true ∧ isSpecial t = false) : scan1 S (.run 0 0) t = none := by
  rcases h with h | rfl | ⟨h, h'⟩
  · cases t <;> simp_all [isClose, isOpen, scan1, isSpecial]
  · simp [isClose, isOpen, scan1, isSpecial]
  · simp [scan1, h, h']

theorem scan_none {S : ST → Bool} {s : Scan} {t : STok} (h : scan1 S s t.ty = none) (u : List STok) : scan S s (t :: u) = none := by
  rw [scan, h]; rfl

/-- A data type in front of a comma or bracket takes an expression only as a whole, and only if it looks like a data type. -/
theorem type_cut {B : Rules} {n : Nat} {e : SExp} {w R r : List STok} {t : DType} {y z : STok} (hw : e.Toks w)
    (hy : isClose y.ty = true ∨ y.ty = .COLON ∨ y.ty = .COMMA ∨ y.ty = .PLUS ∨ y.ty = .MINUS)
    (hz : isClose z.ty = true ∨ z.ty = .COMMA)
    (h : (t, z :: r) ∈ (env B n).dataType (w ++ y :: R)) : tyE e = true ∧ z :: r = y :: R := by
  obtain ⟨u, e1, hu⟩ := type_env B n _ _ h
  have hu := hu 0 0 trivial
  have hw1 := exp_type e w hw
  rcases append_cases e1.symm with ⟨x, h1, h2⟩ | ⟨y', v, h1, h2⟩
  · cases x with
    | nil =>
      simp only [List.append_nil, List.nil_append] at h1 h2
      subst h1
      refine ⟨?_, h2⟩
      cases ht : tyE e with
      | true => rfl
      | false => rw [ht] at hw1; rcases hu with hu | hu <;> · rw [hw1] at hu; cases hu
    | cons x v =>
      exfalso
      have h3 := (List.cons.inj h2).1
      subst h3
      have hw2 := exp_ex xcfg_comma e w hw 0 0 trivial
      subst h1
      rcases hu with hu | hu
      · have hu := scan_mono (fun t => comma_type) u hu
        rw [scan_append, hu, Option.bind_some, scan_none (outer_none ?_)] at hw2
        · cases hw2
        · rcases hz with hz | hz
          · exact .inl hz
          · exact .inr (.inr (by rw [hz]; exact ⟨rfl, rfl⟩))
      · exact not_free hw2 (scan_mono (fun t => comma_type) u hu)
  · exfalso
    have h3 := (List.cons.inj h2).1
    subst h3
    subst h1
    have hn : scan typeS (.run 0 0) (w ++ y :: v) = none := by
      refine then_stop hw1 (scan_none (outer_none ?_) v)
      rcases hy with hy | hy | hy | hy | hy
      · exact .inl hy
      · exact .inr (.inl hy)
      · exact .inr (.inr (by rw [hy]; exact ⟨rfl, rfl⟩))
      · exact .inr (.inr (by rw [hy]; exact ⟨rfl, rfl⟩))
      · exact .inr (.inr (by rw [hy]; exact ⟨rfl, rfl⟩))
    rcases hu with hu | hu <;> · rw [hn] at hu; cases hu

/-- An expression in front of a colon does not go on behind it, and does not end in front of a closing bracket in the text. -/
theorem exp_cut {B : Rules} {n p : Nat} {w R r : List STok} {t : Exp} {y z : STok} (hw : Ex commaS anyG w)
    (hy : y.ty = .COLON ∨ (y.ty = .PLUS ∨ y.ty = .MINUS) ∧ ∃ y' s, R = y' :: s ∧ y'.ty = .COLON)
    (hz : isClose z.ty = true ∨ z.ty = .COMMA) (h : (t, z :: r) ∈ (env B n).expression p (w ++ y :: R)) : False := by
  obtain ⟨u, e1, hu⟩ := (sound_env B n).expression p _ _ h
  have hu := hu 0 0 trivial
  have hw0 := hw 0 0 trivial
  have hno : ∀ t, noS t = true → commaS t = true := by intro t h; cases h
  have hw1 := scan_mono hno w hw0
  rcases append_cases e1.symm with ⟨x, h1, h2⟩ | ⟨y', v, h1, h2⟩
  · cases x with
    | nil =>
      simp only [List.append_nil, List.nil_append] at h1 h2
      have h3 := (List.cons.inj h2).1
      subst h3
      rcases hy with hy | ⟨hy | hy, -⟩ <;> · rw [hy] at hz; rcases hz with hz | hz <;> cases hz
    | cons x v =>
      have h3 := (List.cons.inj h2).1
      subst h3
      subst h1
      cases hs : scan commaS (.run 0 0) u with
      | none => rw [scan_append, hs] at hw0; cases hw0
      | some s =>
        have hs' := scan_mono hno u hs
        have : s = .run 0 0 := by
          rcases hu with hu | hu
          · rw [hu] at hs'; exact (Option.some.inj hs').symm
          · exact (not_free hw1 hu).elim
        subst this
        rw [scan_append, hs, Option.bind_some, scan_none (outer_none ?_)] at hw0
        · cases hw0
        · rcases hz with hz | hz
          · exact .inl hz
          · exact .inr (.inr (by rw [hz]; exact ⟨rfl, rfl⟩))
  · have h3 := (List.cons.inj h2).1
    subst h3
    subst h1
    unfold Back at hu
    rw [scan_append, hw1, Option.bind_some] at hu
    rcases hy with hy | ⟨hy, y', s, hR, hy'⟩
    · rw [scan_none (outer_none (.inr (.inl hy)))] at hu
      rcases hu with hu | hu <;> cases hu
    · rw [scan_cons (s' := .run 0 0) (by rcases hy with hy | hy <;> rw [hy] <;> rfl)] at hu
      have h4 := (List.cons.inj h2).2
      cases v with
      | nil =>
        rw [hR] at h4
        have h5 := (List.cons.inj h4).1
        subst h5
        rw [hy'] at hz; rcases hz with hz | hz <;> cases hz
      | cons v0 v =>
        rw [hR] at h4
        have h5 := (List.cons.inj h4).1
        subst h5
        rw [scan_none (outer_none (.inr (.inl hy')))] at hu
        rcases hu with hu | hu <;> cases hu

end Verif.Sv
