import Verif.VhdlItemGood
/-!
# VHDL concurrent statements: those without statements inside and processes
-/
set_option linter.unusedSectionVars false
namespace Verif.Vhdl
open P Verif.Spec Verif.Spec.Lrm

/-! ## The fragment of which the AST keeps the meaning -/

def LSens.Ok : LSens → Prop
  | .names n l => ∀ x ∈ n :: l, LName.Ok x
  | _ => True

/-- Components. -/
def LUnit.Ok : LUnit → Prop
  | .component _ n => LName.Ok n
  | _ => False

/-- `others` only as the last choice; no `select ?`, no delay mechanism. -/
def selOk (e : LExpr) (q : Bool) (t : LTarget) (d : LDelay) (l : LSel LWave) : Prop :=
  d = .none ∧ q = false ∧ LExpr.Ok e ∧ LTarget.Ok t ∧ (∀ p ∈ l.head :: l.tail, LWave.Ok p.1 ∧ ∀ x ∈ p.2.list, LChoice.Ok x) ∧
    ∀ x ∈ ((l.head :: l.tail).flatMap (·.2.list)).dropLast, x.isOthers = false

mutual
/-- No labels at the alternatives of generate statements, a label behind `end generate` is that of the statement; no `others` in
`case generate`. -/
def LConc.Ok : LConc → Prop
  | .process _ s _ ds ss _ => LSens.Ok s ∧ declsOk ds ∧ seqsOk ss
  | .call _ p args => LName.Ok p ∧ argsOk args ∧ ∀ s ∈ [c! "assert", c! "report", c! "NEXT", c! "EXIT"], LName.litOf p ≠ some (.ident s)
  | .assert_ _ c r s => LExpr.Ok c ∧ optOk r ∧ optOk s ∧ (r = none → s = none)
  | .wave _ t d w => LAssign.Ok (.wave t d w)
  | .waveCond _ t d c => LAssign.Ok (.waveCond t d c)
  | .waveSel _ e q t d l => selOk e q t d l
  | .block _ _ ds ss _ => declsOk ds ∧ concsOk ss
  | .inst _ u g p => LUnit.Ok u ∧ argsOk g ∧ argsOk p
  | .forGen l _ d b e => LDiscr.Ok d ∧ LBody.Ok b ∧ (e = none ∨ e = some l)
  | .ifGen l c el f e => LGen.Ok c ∧ gensOk el ∧ LGenElse.Ok f ∧ (e = none ∨ e = some l)
  | .caseGen _ x a m _ => LExpr.Ok x ∧ LGenAlt.Ok a ∧ genAltsOk m
def concsOk : List LConc → Prop
  | [] => True
  | c :: l => LConc.Ok c ∧ concsOk l
def LGen.Ok : LGen → Prop
  | .mk l c b => l = none ∧ LExpr.Ok c ∧ LBody.Ok b
def gensOk : List LGen → Prop
  | [] => True
  | g :: l => LGen.Ok g ∧ gensOk l
def LGenElse.Ok : LGenElse → Prop
  | .none => True
  | .some l b => l = none ∧ LBody.Ok b
def LGenAlt.Ok : LGenAlt → Prop
  | .mk l c b => l = none ∧ (∀ x ∈ c.list, LChoice.Ok x ∧ x.isOthers = false) ∧ LBody.Ok b
def genAltsOk : List LGenAlt → Prop
  | [] => True
  | a :: l => LGenAlt.Ok a ∧ genAltsOk l
def LBody.Ok : LBody → Prop
  | .plain ss => concsOk ss
  | .full ds ss _ => declsOk ds ∧ concsOk ss
end

/-! ## What the grammar accepts of the LRM -/

mutual
/-- Procedure calls have no label (with a label they are read as instantiations); the body of `for generate` and `if generate` has no `end ;`
of its own (lines 970-983, 1001-1007), the body of an alternative of `case generate` has one if it has a `begin` (lines 989-1000). -/
def LConc.Reg : LConc → Prop
  | .call l _ _ => l = none
  | .block _ _ _ ss _ => concsReg ss
  | .forGen _ _ _ b _ => LBody.Reg false b
  | .ifGen _ c el f _ => LGen.Reg c ∧ gensReg el ∧ LGenElse.Reg f
  | .caseGen _ _ a m _ => LGenAlt.Reg a ∧ genAltsReg m
  | _ => True
def concsReg : List LConc → Prop
  | [] => True
  | c :: l => LConc.Reg c ∧ concsReg l
def LGen.Reg : LGen → Prop
  | .mk _ _ b => LBody.Reg false b
def gensReg : List LGen → Prop
  | [] => True
  | g :: l => LGen.Reg g ∧ gensReg l
def LGenElse.Reg : LGenElse → Prop
  | .none => True
  | .some _ b => LBody.Reg false b
def LGenAlt.Reg : LGenAlt → Prop
  | .mk _ _ b => LBody.Reg true b
def genAltsReg : List LGenAlt → Prop
  | [] => True
  | a :: l => LGenAlt.Reg a ∧ genAltsReg l
/-- `closed`: the body ends with `end ;` if it has a `begin`. -/
def LBody.Reg (closed : Bool) : LBody → Prop
  | .plain ss => concsReg ss
  | .full _ ss f => concsReg ss ∧ f.isSome = closed
end

/-! ## Plain statements -/

structure MCk {V : Type} (A : Alg V) (t : ConcKind) (c : Option Str → LConc) : Prop where
  ev : ∀ {S : Type} (B : SAlg V S) (l : Option Str), evLabel B l (evConcKind A B t) = (c l).eval A B
  ok : ∀ l, LConc.Ok (c l) → okConcKind t

section
variable {G : Gr} {I : Items} {conc : P Conc} {l : Str}
theorem st_block : Starts [.kw .BLOCK] (blockStatement G I conc l) := Starts.tok
theorem st_for : Starts [.kw .FOR] (forGenerate G I conc l) := Starts.tok
theorem st_if : Starts [.kw .IF] (ifGenerate G I conc l) := Starts.bind Starts.tok
theorem st_case : Starts [.kw .CASE] (caseGenerate G I conc l) := Starts.tok
theorem st_gen : Starts [.kw .FOR, .kw .IF, .kw .CASE] (generateStatement G I conc l) :=
  Starts.or (st_for.mono (by decide)) (Starts.or (st_if.mono (by decide)) (st_case.mono (by decide)))

theorem process_no {R : List VTok} (h1 : next R ≠ some (.kw .POSTPONED)) (h2 : next R ≠ some (.kw .PROCESS)) : processStatement G I R = [] := by
  refine (flag_skip h1).trans ?_
  exact bind_nil (tok_next h2)

theorem assertion_no {E : Env} {R : List VTok} (h1 : next R ≠ some (.kw .POSTPONED)) (h2 : next R ≠ some (.kw .ASSERT)) : concurrentAssertion E R = [] := by
  refine (flag_skip h1).trans ?_
  exact bind_nil (bind_nil (tok_next h2))
end

theorem name_nil {M : Nat} {L : List VT} {R : List VTok} (hR : Nx L R) (hL : ∀ t ∈ L, nameStart t = false) : (env M).name R = [] := by
  refine name_no ?_
  intro t h
  obtain ⟨t', h1, h2⟩ := hR
  rw [h1] at h; cases h; exact hL _ h2

/-- No instantiation if no name is followed by `generic`, `port` or `;`. -/
theorem inst_no {M : Nat} {l : Str} {R : List VTok} (h : ∀ t ∈ [VT.kw .COMPONENT, .kw .ENTITY, .kw .CONFIGURATION], next R ≠ some t)
    (hn : ∀ x ∈ (env M).name R, ∀ t ∈ [VT.kw .GENERIC, .kw .PORT, .SEMI], next x.2 ≠ some t) : componentInstantiation (env M) l R = [] := by
  refine List.eq_nil_iff_forall_not_mem.2 fun x hx => ?_
  obtain ⟨u, r, h1, h2⟩ := mem_bind.1 hx
  have hr : ∃ n, (n, r) ∈ (env M).name R := by
    rcases mem_or.1 h1 with h1 | h1
    · rw [flag_skip (h _ (by decide))] at h1
      obtain ⟨n, r', h3, h4⟩ := mem_bind.1 h1
      rw [mem_pure] at h4; cases h4
      exact ⟨n, h3⟩
    · have e : alts [tok (.kw .ENTITY) >>= fun _ => (env M).name >>= fun n => opt (do
          let _ ← tok .LPAREN
          let i ← identifier
          let _ ← tok .RPAREN
          return i) >>= fun a => pure (InstUnit.entity n a), tok (.kw .CONFIGURATION) >>= fun _ => (env M).name >>= fun n => pure (InstUnit.config n)] R = [] :=
        or_nil (bind_nil (tok_next (h _ (by decide)))) (bind_nil (tok_next (h _ (by decide))))
      exact absurd h1 (by rw [show _ = _ from e]; simp)
  obtain ⟨n, hr⟩ := hr
  have k := hn _ hr
  have e1 : opt (genericMap (env M)) r = [(none, r)] := opt_none (bind_nil (tok_next (k _ (by decide))))
  have e2 : opt (portMap (env M)) r = [(none, r)] := opt_none (bind_nil (tok_next (k _ (by decide))))
  have e3 : tok .SEMI r = [] := tok_next (k _ (by decide))
  obtain ⟨_, _, h3, h4⟩ := mem_bind.1 h2
  rw [e1, List.mem_singleton] at h3; cases h3
  obtain ⟨_, _, h3, h4⟩ := mem_bind.1 h4
  rw [e2, List.mem_singleton] at h3; cases h3
  rw [bind_nil e3] at h4; cases h4

theorem inst_no' {M : Nat} {l : Str} {L : List VT} {R : List VTok} (hR : Nx L R) (h : ∀ t ∈ L, t ∉ [VT.kw .COMPONENT, .kw .ENTITY, .kw .CONFIGURATION])
    (hL : ∀ t ∈ L, nameStart t = false) : componentInstantiation (env M) l R = [] :=
  inst_no (fun t ht => hR.not fun h' => h t h' ht) fun x hx => by rw [name_nil hR hL] at hx; cases hx

/-- Behind a target that is followed by `<=`. -/
theorem name_tgt {M : Nat} {x : LTarget} {w R : List VTok} (h : x.Toks w) (hR : Nx [.CONASGN] R) {y : Name × List VTok} (hy : y ∈ (env M).name (w ++ R))
    {t : VT} (ht : partStart t = false) (hc : t ≠ .CONASGN) : next y.2 ≠ some t := by
  have : (Target.name y.1, y.2) ∈ target (env M) (w ++ R) := mem_or.2 (.inl (mem_bind.2 ⟨y.1, y.2, hy, mem_pure.2 rfl⟩))
  rcases target_only h hR (by decide) this with e | e
  · simp only at e; rw [e]; exact hR.not (by simpa using hc)
  · exact Dp.ne e ht

theorem nx_stops {S : VT → Bool} {L : List VT} {R : List VTok} (h : Nx L R) (hL : ∀ t ∈ L, S t = true) : Stops S R := by
  obtain ⟨y, s, rfl, hy⟩ := h.cons
  exact ⟨y, s, rfl, .inr (hL _ hy)⟩

/-- How a statement is read: as such, and as none of those that need a label. -/
structure RdK (G : Gr) (I : Items) (w R : List VTok) (t : ConcKind) : Prop where
  noLab : NoLab (w ++ R)
  rd : Rd None' (concKind G I) w R t
  block : ∀ conc l, blockStatement G I conc l (w ++ R) = []
  inst : ∀ l, componentInstantiation G.E l (w ++ R) = []
  gen : ∀ conc l, generateStatement G I conc l (w ++ R) = []

/-- A flag that is not there. -/
theorem flag_rd0 {α : Type} {D : List VTok → Prop} {t : VT} {f : Bool → P α} {w R : List VTok} {a : α} (h : next (w ++ R) ≠ some t) (hf : Rd D (f false) w R a) :
    Rd D (flag t >>= f) w R a := by
  unfold Rd First at *
  rw [flag_skip h]; exact hf

theorem opt_rd0 {α β : Type} {D : List VTok → Prop} {p : P β} {f : Option β → P α} {w R : List VTok} {a : α} (h : p (w ++ R) = []) (hf : Rd D (f none) w R a) :
    Rd D (opt p >>= f) w R a := by
  unfold Rd First at *
  have : (opt p >>= f) (w ++ R) = f none (w ++ R) := by rw [bind_apply, opt_none h]; simp
  rw [this]; exact hf

section
variable {V : Type} {A : Alg V} {k M d e : Nat} (g : Good A k) (hM : 3 * k + 2 < M)
include g hM

theorem names_rd {l : List LName} {w R : List VTok} (h : Sep .COMMA LName.Toks l w) (hk : w.length ≤ k) (hR : Nx [.RPAREN] R) :
    ∃ ts, List.Forall₂ (MN A) ts l ∧ Rd None' (sepBy .COMMA (env M).name) w R ts :=
  sep_rd (T := LName.Toks) (Mx := MN A) (k := k) (D := None') (C := Nx [.RPAREN]) (fun R hR => hR.not (by decide)) (fun _ h => h.elim)
    (fun b u R hb hk hR => by
      have : Nx [.COMMA, .RPAREN] R := by
        rcases hR with hR | hR
        · exact ⟨_, hR, by decide⟩
        · exact hR.mono (by decide)
      exact name_rd g hM hb hk this (by decide)) h hk hR

/-- The sensitivity list of a process. -/
theorem sens_rd {s : LSens} {w R : List VTok} (h : s.Toks w) (hk : w.length ≤ k) (hR : next R ≠ some .LPAREN) :
    ∃ o, (evSens A (Option.getD o .none) = s.eval A ∧ (LSens.Ok s → okSens (Option.getD o .none))) ∧ Rd None' (opt (do
      let _ ← tok .LPAREN
      let s ← processSensitivity (env M)
      let _ ← tok .RPAREN
      return s)) w R o := by
  cases s with
  | none => cases h; exact ⟨none, ⟨rfl, fun _ => trivial⟩, Rd.none (bind_nil (tok_next hR))⟩
  | all =>
    obtain ⟨w0, _, rfl, h0, w1, w2, rfl, h1, h2⟩ := h
    exact ⟨some .all, ⟨rfl, fun _ => trivial⟩, Rd.some (Rd.tok h0 (Rd.bindN (Rd.orL (Rd.last h1)) (Rd.last h2)))⟩
  | names n l =>
    obtain ⟨w0, _, rfl, h0, w1, w2, rfl, h1, h2⟩ := h
    simp only [List.length_append] at hk
    obtain ⟨ts, m, f⟩ := names_rd g hM h1 (R := w2 ++ R) (by omega) (Nx.one h2 (by decide))
    refine ⟨some (.names ts), ⟨?_, fun hok x hx => ?_⟩, Rd.some (Rd.tok h0 (Rd.bindN (Rd.orN ?_ (Rd.map (g := ProcSens.names) f)) (Rd.last h2)))⟩
    · simp only [Option.getD_some, evSens, LSens.eval, fall_map (f := evName A) (f' := LName.eval A) (fun _ _ h => h.ev) m]
    · obtain ⟨b, hb, hm⟩ := fall_mem m hx
      exact hm.ok (hok b hb)
    · refine bind_nil (tok_next ?_)
      obtain ⟨u, v, rfl, hu, -⟩ := h1
      rw [List.append_assoc]
      intro e
      obtain ⟨y, s, rfl, hy⟩ := LName.start hu
      rw [List.cons_append, next_cons] at e
      rw [Option.some.inj e] at hy; cases hy

theorem process_good (he : k ≤ e) {n : Nat} {s : LSens} {is : Bool} {ds : List LDecl} {ss : List LSeq} {el : Option Str} {w R : List VTok}
    (h : Cat (Word .PROCESS) (Cat s.Toks (Cat (Flag (.kw .IS) is) (Cat (declsToks .body ds)
      (Cat (Word .BEGIN) (Cat (seqsToks ss) (endToks .PROCESS false el)))))) w) (hk : w.length ≤ k) (hn : w.length ≤ n) :
    ∃ t, MCk A t (fun l => .process l s is ds ss el) ∧ RdK (gx M d e) (items (gx M d e) n) w R t := by
  obtain ⟨w0, _, rfl, h0, w1, _, rfl, h1, w2, _, rfl, h2, w3, _, rfl, h3, w4, _, rfl, h4, w5, _, rfl, h5, he'⟩ := h
  have n5 := end_nx he' (R := R)
  obtain ⟨w6, _, rfl, h6, w7, _, rfl, h7, _, _, rfl, hq, w8, w9, rfl, h8, h9⟩ := he'
  cases hq
  simp only [List.nil_append, List.length_append] at hk hn n5 ⊢
  have hx : Nx [.kw .PROCESS] ((w0 ++ (w1 ++ (w2 ++ (w3 ++ (w4 ++ (w5 ++ (w6 ++ (w7 ++ (w8 ++ w9))))))))) ++ R) := Nx.cat h0 (by decide)
  have n3 : Nx [.kw .BEGIN] ((w4 ++ (w5 ++ (w6 ++ (w7 ++ (w8 ++ w9))))) ++ R) := Nx.cat h4 (by decide)
  have n2 := Nx.assoc (decls_nx h3 n3)
  have n1 : Nx (.kw .IS :: (itemStart ++ [.kw .BEGIN])) ((w2 ++ (w3 ++ (w4 ++ (w5 ++ (w6 ++ (w7 ++ (w8 ++ w9))))))) ++ R) := by
    cases is with
    | false => cases h2; exact n2.mono (by decide)
    | true => exact Nx.cat h2 (by decide)
  obtain ⟨t1, m1, f1⟩ := sens_rd g hM h1 (by omega) (n1.not (by decide))
  obtain ⟨t3, m3, f3⟩ := itemsAt_rd (d := d) g hM he h3 (n := n) (by omega) (by omega) (n3.mono (by decide))
  obtain ⟨t5, m5, f5⟩ := seqs_rd (n := k) (A := A) (stm := seqStm (env M) e) (fun R hR => seqStm_no hR)
    (fun s u R hs hu => seqStm_rd g hM e s u R hs hu (by omega)) h5 (by omega) (n5.mono (by decide))
  refine ⟨.process false (t1.getD .none) t3 t5, ⟨fun B l => ?_, fun l h => ?_⟩, hx.noLab (by decide) (by decide), Rd.orL (flag_rd0 (hx.not (by decide)) ?_),
    fun _ _ => st_block.no hx (by decide), fun _ => inst_no' hx (by decide) (by decide), fun _ _ => st_gen.no hx (by decide)⟩
  · simp only [LConc.eval, evConcKind, evFlag, m1.1, (decls_eq m3).1, (seqs_eq m5).1]
    cases l <;> rfl
  · simp only [LConc.Ok] at h
    exact ⟨rfl, m1.2 h.1, (decls_eq m3).2 h.2.1, (seqs_eq m5).2 h.2.2⟩
  · have f9 : Rd None' (opt label >>= fun _ => tok .SEMI >>= fun _ => pure (ConcKind.process false (t1.getD .none) t3 t5)) (w8 ++ w9) R _ :=
      Rd.bindN (label_rd h8 (L := [.SEMI]) (Nx.one h9 (by decide)) (by decide) (by decide)) (Rd.last h9)
    have f7 := opt_rd0 (p := tok (.kw .POSTPONED)) (f := fun _ => tok (.kw .PROCESS) >>= fun _ => opt label >>= fun _ => tok .SEMI >>= fun _ => pure (ConcKind.process false (t1.getD .none) t3 t5))
      (w := w7 ++ (w8 ++ w9)) (R := R) (by
        have : Nx [.kw .PROCESS] ((w7 ++ (w8 ++ w9)) ++ R) := Nx.cat h7 (by decide)
        exact this.tok (by decide)) (Rd.tok h7 f9)
    refine Rd.tok h0 (Rd.bindN f1 ?_)
    have : ∃ o, Rd None' (opt (tok (.kw .IS))) w2 ((w3 ++ (w4 ++ (w5 ++ (w6 ++ (w7 ++ (w8 ++ w9)))))) ++ R) o := by
      cases is with
      | false => cases h2; exact ⟨none, Rd.none (n2.tok (by decide))⟩
      | true =>
        obtain ⟨y, rfl, hy⟩ := h2
        exact ⟨some y.text, Rd.some (First.tok hy _)⟩
    obtain ⟨o, f2⟩ := this
    exact Rd.bindN f2 (Rd.bindN f3 (Rd.tok h4 (Rd.bindN f5 (Rd.tok h6 f7))))

theorem call_conc {p : LName} {args : List LArg} {w R : List VTok} {I : Items} (h : Cat (callToks p args) (One .SEMI) w) (hk : w.length ≤ k) :
    ∃ t, MCk A t (fun l => .call l p args) ∧ NoLab (w ++ R) ∧ Rd None' (concKind (gx M d e) I) w R t := by
  obtain ⟨-, -, t, h1, h2, f⟩ := call_good (R := R) g hM (p := p) (args := args) (w := w) (by simp only [LStm.Toks]; exact h) hk
  obtain ⟨wn, ws, rfl, ⟨hp, hn⟩, hs⟩ := h
  have hn' : (callName p args).Toks wn := by cases args <;> exact hn
  have hst := LName.start hn'
  have hne : ∀ t, nameStart t = false → next (wn ++ ws ++ R) ≠ some t := by
    intro t ht e
    obtain ⟨y, s, rfl, hy⟩ := hst
    rw [List.cons_append, List.cons_append, next_cons] at e
    rw [Option.some.inj e] at hy; rw [ht] at hy; cases hy
  rw [List.length_append] at hk
  obtain ⟨t', ht', f'⟩ := name_rd g hM hn' (by omega) (R := ws ++ R) (L := [.SEMI]) (Nx.one hs (by decide)) (by decide)
  have et : t = t' := by
    have f2 : Rd None' (procedureCall (env M)) (wn ++ ws) R (.call t') := Rd.bindN f' (Rd.last hs)
    obtain ⟨pre, post, e1, hp1⟩ := f
    obtain ⟨pre', post', e2, hp2⟩ := f2
    have hp1 : pre = [] := List.eq_nil_iff_forall_not_mem.2 fun x hx => hp1 x hx
    have hp2 : pre' = [] := List.eq_nil_iff_forall_not_mem.2 fun x hx => hp2 x hx
    rw [hp1] at e1; rw [hp2] at e2
    have := (List.cons.inj (e1.symm.trans e2)).1
    simpa using this
  subst et
  refine ⟨.call false t, ⟨fun B l => ?_, fun l h => ?_⟩, ?_, Rd.orN (process_no (hne _ rfl) (hne _ rfl)) (Rd.orL (flag_rd0 (hne _ rfl) (Rd.bindN f' (Rd.last hs))))⟩
  · simp only [LConc.eval, evConcKind, evFlag, h1]
    cases l <;> rfl
  · simp only [LConc.Ok] at h
    exact ⟨rfl, h2 h.1 h.2.1 h.2.2⟩
  · rw [List.append_assoc]
    exact LName.noLab hn' (One.ne hs (by decide))

theorem assert_conc {c : LExpr} {r s : Option LExpr} {w R : List VTok} {I : Items} (h : Cat (Word .ASSERT) (Cat c.Toks (Cat (Opt' (After .REPORT LExpr.Toks) r)
      (Cat (Opt' (After .SEVERITY LExpr.Toks) s) (One .SEMI)))) w) (hk : w.length ≤ k) :
    ∃ t, MCk A t (fun l => .assert_ l c r s) ∧ RdK (gx M d e) I w R t := by
  obtain ⟨w0, _, rfl, h0, w1, _, rfl, h1, w2, _, rfl, h2, w3, w4, rfl, h3, h4⟩ := h
  simp only [List.length_append] at hk
  have n0 : Nx [.SEMI] (w4 ++ R) := Nx.one h4 (by decide)
  have n1 : Nx [.kw .SEVERITY, .SEMI] ((w3 ++ w4) ++ R) := Nx.assoc (Nx.opt h3 (n0.mono (by decide)) (by decide))
  have n2 : Nx [.kw .REPORT, .kw .SEVERITY, .SEMI] ((w2 ++ (w3 ++ w4)) ++ R) := Nx.assoc (Nx.opt h2 (n1.mono (by decide)) (by decide))
  obtain ⟨t1, m1, f1⟩ := expr_rd g hM h1 (by omega) (n2.mono (by decide))
  obtain ⟨t2, m2, f2⟩ := optE_rd g hM h2 (by omega) n1 (by decide) (by decide)
  obtain ⟨t3, m3, f3⟩ := optE_rd g hM h3 (by omega) n0 (by decide) (by decide)
  have hx : Nx [.kw .ASSERT] ((w0 ++ (w1 ++ (w2 ++ (w3 ++ w4)))) ++ R) := Nx.cat h0 (by decide)
  refine ⟨.assert_ false t1 t2 t3, ⟨fun B l => ?_, fun l h => ?_⟩, hx.noLab (by decide) (by decide), Rd.orN (process_no (hx.not (by decide)) (hx.not (by decide)))
    (Rd.orN ((flag_skip (hx.not (by decide))).trans (bind_nil (name_nil hx (by decide)))) (Rd.orL (flag_rd0 (hx.not (by decide)) ?_))),
    fun _ _ => st_block.no hx (by decide), fun _ => inst_no' hx (by decide) (by decide), fun _ _ => st_gen.no hx (by decide)⟩
  · simp only [evConcKind, evFlag, LConc.eval, m1.ev, m2.map (f := evExpression A) (g := LExpr.eval A) fun _ _ h => h.ev,
      m3.map (f := evExpression A) (g := LExpr.eval A) fun _ _ h => h.ev]
    cases l <;> rfl
  · simp only [LConc.Ok] at h
    refine ⟨rfl, m1.ok h.1, m2.ok h.2.1, m3.ok h.2.2.1, ?_⟩
    rintro rfl
    have hr : r = none := by cases r with
      | none => rfl
      | some => exact m2.elim
    have hs := h.2.2.2 hr
    subst hs
    cases t3 with
    | none => rfl
    | some => exact m3.elim
  · have : Rd None' (assertionStatement (env M)) (w0 ++ (w1 ++ (w2 ++ (w3 ++ w4)))) R (.assert_ t1 t2 t3) :=
      Rd.tok h0 (Rd.head f1 (Rd.head f2 (Rd.head f3 (Rd.last h4) fun _ => Kill.tok rfl) fun _ => Kill.opt rfl (Kill.tok rfl))
        fun _ => Kill.opt rfl (Kill.opt rfl (Kill.tok rfl)))
    exact Rd.map (g := mkAssert false) this

/-! ### Assignments -/

omit g hM in
/-- What begins with a target is read as an assignment to it. -/
theorem tgt_rdk {x : LTarget} {wt v R : List VTok} (ht : x.Toks wt) (hR : Nx [.CONASGN] (v ++ R)) {I : Items} {t : ConcKind}
    (f : Rd None' (concurrentAssignAny (env M) false) (wt ++ v) R t) : RdK (gx M d e) I (wt ++ v) R t := by
  have hne : ∀ t, nameStart t = false → t ≠ .LPAREN → next ((wt ++ v) ++ R) ≠ some t := fun t h1 h2 => by
    rw [List.append_assoc]; exact LTarget.ne ht h1 h2
  have hy : ∀ y ∈ (env M).name ((wt ++ v) ++ R), ∀ t, partStart t = false → t ≠ .CONASGN → next y.2 ≠ some t := fun y hy t h1 h2 => by
    rw [List.append_assoc] at hy
    exact name_tgt ht hR hy h1 h2
  refine ⟨?_, Rd.orN (process_no (hne _ rfl (by decide)) (hne _ rfl (by decide))) (Rd.orN ?_ (Rd.orN (assertion_no (hne _ rfl (by decide)) (hne _ rfl (by decide)))
    (flag_rd0 (hne _ rfl (by decide)) (Rd.orL f)))), fun _ _ => st_block _ ?_, fun _ => inst_no ?_ ?_, fun _ _ => st_gen _ ?_⟩
  · rw [List.append_assoc]; exact LTarget.noLab ht (hR.not (by decide))
  · refine (flag_skip (hne _ rfl (by decide))).trans ?_
    refine List.eq_nil_iff_forall_not_mem.2 fun x hx => ?_
    obtain ⟨n, r, h1, h2⟩ := mem_bind.1 hx
    rw [bind_nil (tok_next (hy _ h1 _ rfl (by decide)))] at h2; cases h2
  · intro t h; simp only [List.mem_singleton] at h; subst h; exact hne _ rfl (by decide)
  · intro t h
    simp only [List.mem_cons, List.not_mem_nil, or_false] at h
    rcases h with rfl | rfl | rfl <;> exact hne _ rfl (by decide)
  · intro x hx t h
    simp only [List.mem_cons, List.not_mem_nil, or_false] at h
    rcases h with rfl | rfl | rfl <;> exact hy x hx _ rfl (by decide)
  · intro t h
    simp only [List.mem_cons, List.not_mem_nil, or_false] at h
    rcases h with rfl | rfl | rfl <;> exact hne _ rfl (by decide)

omit g hM in
theorem delay_ng {x : LDelay} {wd R : List VTok} (hd : x.Toks wd) (hR : next R ≠ some (.kw .GUARDED)) : next (wd ++ R) ≠ some (.kw .GUARDED) := by
  cases x with
  | none => cases hd; exact hR
  | transport | inertial => exact One.ne hd (by decide)
  | reject => obtain ⟨u1, u2, rfl, hu, -⟩ := hd; rw [List.append_assoc]; exact One.ne hu (by decide)

theorem wave_conc {x : LTarget} {dl : LDelay} {y : LWave} {w R : List VTok} {I : Items} (h : (LAssign.wave x dl y).Toks w) (hk : w.length ≤ k) :
    ∃ t, MCk A t (fun l => .wave l x dl y) ∧ RdK (gx M d e) I w R t := by
  obtain ⟨wt, _, rfl, ht, wa, _, rfl, ha, _, ws, rfl, ⟨wd, ww, rfl, hd, hw⟩, hs⟩ := h
  simp only [List.length_append] at hk
  rw [List.append_assoc wd]
  obtain ⟨tt, mt, ft⟩ := target_rd g hM ht (R := (wa ++ (wd ++ (ww ++ ws))) ++ R) (L := [.CONASGN]) (by omega) (Nx.cat ha (by decide)) (by decide)
  obtain ⟨td, md, fd⟩ := delay_rd g hM hd (R := (ww ++ ws) ++ R) (by omega) (by rw [List.append_assoc]; exact LWave.ne hw rfl (by decide))
    (by rw [List.append_assoc]; exact LWave.ne hw rfl (by decide)) (by rw [List.append_assoc]; exact LWave.ne hw rfl (by decide))
  obtain ⟨tw, mw, fw⟩ := waveform_rd g hM hw (R := ws ++ R) (by omega) (Nx.one hs (by decide))
  have hg : next ((wd ++ (ww ++ ws)) ++ R) ≠ some (.kw .GUARDED) := by
    rw [List.append_assoc, List.append_assoc]
    exact delay_ng hd (LWave.ne hw rfl (by decide))
  refine ⟨.assign false false tt td tw, ⟨fun B l => ?_, fun l hok => ?_⟩, tgt_rdk ht (Nx.cat ha (by decide)) ?_⟩
  · simp only [evConcKind, evFlag, LConc.eval, LAssign.eval, md.ev, mt.ev, mw.ev]
    cases l <;> rfl
  · simp only [LConc.Ok] at hok
    cases dl with
    | none => exact ⟨rfl, rfl, md.no rfl, mt.ok hok.1, mw.ok hok.2⟩
    | _ => exact hok.elim
  · exact Rd.bindN ft (Rd.tok ha (flag_rd0 hg (Rd.bindN fd (Rd.head (Rd.orL (Rd.map (g := fun w => ConcKind.assign false false tt td w) fw)) (Rd.last hs) fun _ => Kill.tok rfl))))

theorem waveCond_conc {x : LTarget} {dl : LDelay} {y : LCond LWave} {w R : List VTok} {I : Items} (h : (LAssign.waveCond x dl y).Toks w) (hk : w.length ≤ k) :
    ∃ t, MCk A t (fun l => .waveCond l x dl y) ∧ RdK (gx M d e) I w R t := by
  obtain ⟨wt, _, rfl, ht, wa, _, rfl, ha, _, ws, rfl, ⟨wd, ww, rfl, hd, hw⟩, hs⟩ := h
  simp only [List.length_append] at hk
  rw [List.append_assoc wd]
  obtain ⟨tt, mt, ft⟩ := target_rd g hM ht (R := (wa ++ (wd ++ (ww ++ ws))) ++ R) (L := [.CONASGN]) (by omega) (Nx.cat ha (by decide)) (by decide)
  have hw' := hw
  obtain ⟨_, v, rfl, ⟨w1, _, rfl, hw1, w2, w3, rfl, hw2, -⟩, -⟩ := hw'
  have hne : ∀ t, expStart t = false → t ≠ .kw .UNAFFECTED → ∀ R, next (w1 ++ (w2 ++ w3) ++ v ++ R) ≠ some t := by
    intro t h1 h2 R
    rw [List.append_assoc, List.append_assoc]
    exact LWave.ne hw1 h1 h2
  obtain ⟨td, md, fd⟩ := delay_rd g hM hd (R := ((w1 ++ (w2 ++ w3) ++ v) ++ ws) ++ R) (by omega) (by rw [List.append_assoc]; exact hne _ rfl (by decide) _)
    (by rw [List.append_assoc]; exact hne _ rfl (by decide) _) (by rw [List.append_assoc]; exact hne _ rfl (by decide) _)
  obtain ⟨tw, mw, fw⟩ := conditional_rd g hM (fun b u R hb hk hR => waveform_rd g hM hb hk hR) waveform_s4 (fun b u hb => LWave.flat4 hb) hw (R := ws ++ R)
    (by simp only [List.length_append] at *; omega) (Nx.one hs (by decide))
  have hg : next ((wd ++ ((w1 ++ (w2 ++ w3) ++ v) ++ ws)) ++ R) ≠ some (.kw .GUARDED) := by
    rw [List.append_assoc]
    refine delay_ng hd ?_
    rw [List.append_assoc]
    exact hne _ rfl (by decide) _
  have ms := mas_cond mt md mw
  refine ⟨.assignCond false false tt td ⟨tw.1, tw.2.1, tw.2.2⟩, ⟨fun B l => ?_, fun l hok => ?_⟩, tgt_rdk ht (Nx.cat ha (by decide)) ?_⟩
  · have := ms.ev B
    simp only [evSeqKind, evSigAssign] at this
    simp only [evConcKind, evFlag, LConc.eval, ← this]
    cases l <;> rfl
  · simp only [LConc.Ok] at hok
    have := ms.ok hok
    cases dl with
    | none =>
      simp only [md.no rfl, okSeqKind, okSig] at this
      exact ⟨rfl, rfl, md.no rfl, this⟩
    | _ => exact hok.elim
  · refine Rd.bindN ft (Rd.tok ha (flag_rd0 hg (Rd.bindN fd (Rd.head (D' := fun s => next s ≠ some .SEMI) (First.orR ?_ ?_) (Rd.last hs) fun _ s hs => bind_nil (tok_next hs)))))
    · intro z hz e
      obtain ⟨a, r, h1, h2⟩ := mem_bind.1 hz
      rw [mem_pure] at h2; subst h2
      rw [List.append_assoc, List.append_assoc] at h1
      have n1 : Nx [.kw .WHEN] ((w2 ++ w3) ++ (v ++ (ws ++ R))) := Nx.cat hw2 (by decide)
      have := flat_only seps_S4 waveform_s4 (LWave.flat4 hw1) (nx_stops n1 (by decide)) h1 (nx_stops (L := [.SEMI]) ⟨_, e, by decide⟩ (by decide))
      simp only at this e
      rw [this] at e
      exact n1.not (by decide) e
    · exact First.map (f := fun c => ConcKind.assignCond false false tt td c) (First.map (f := fun x => (⟨x.1, x.2.1, x.2.2⟩ : CondWaves)) (First.mono fw fun s hs => Dp.ne hs rfl))

omit g hM in
theorem fall_flat {t : List (Waveform × List Choice)} {l : List (LWave × LChoices)} (h : List.Forall₂ (fun a b => MW A a.1 b.1 ∧ MCs A a.2 b.2) t l) :
    List.Forall₂ (MC A) (t.flatMap (·.2)) (l.flatMap (·.2.list)) := by
  induction h with
  | nil => exact .nil
  | cons h _ ih => rw [List.flatMap_cons, List.flatMap_cons]; exact List.rel_append h.2 ih

omit g hM in
theorem fall_dropLast {α β : Type} {P : α → β → Prop} {l : List α} {l' : List β} (h : List.Forall₂ P l l') : List.Forall₂ P l.dropLast l'.dropLast := by
  induction h with
  | nil => exact .nil
  | cons h t ih =>
    cases t with
    | nil => exact .nil
    | cons h' t => exact .cons h ih

theorem waveSel_conc {c : LExpr} {q : Bool} {x : LTarget} {dl : LDelay} {y : LSel LWave} {w R : List VTok} {I : Items} (h : (LAssign.waveSel c q x dl y).Toks w)
    (hk : w.length ≤ k) : ∃ t, MCk A t (fun l => .waveSel l c q x dl y) ∧ RdK (gx M d e) I w R t := by
  obtain ⟨u1, _, rfl, h1, u2, _, rfl, h2, u3, _, rfl, h3, u4, _, rfl, h4, wt, _, rfl, ht, wa, _, rfl, ha, _, ws, rfl, ⟨wd, ww, rfl, hd, hw⟩, hs⟩ := h
  simp only [List.length_append] at hk
  rw [List.append_assoc wd]
  obtain ⟨te, me, fe⟩ := head_rd g hM h1 h2 h3 h4 (R := (wt ++ (wa ++ (wd ++ (ww ++ ws)))) ++ R) (by omega)
    (by rw [List.append_assoc]; exact LTarget.ne ht rfl (by decide))
  obtain ⟨tt, mt, ft⟩ := target_rd g hM ht (R := (wa ++ (wd ++ (ww ++ ws))) ++ R) (L := [.CONASGN]) (by omega) (Nx.cat ha (by decide)) (by decide)
  have hne : ∀ t, expStart t = false → t ≠ .kw .UNAFFECTED → ∀ R, next (ww ++ R) ≠ some t := by
    intro t h1 h2 R
    obtain ⟨_, v, rfl, ⟨w1, _, rfl, hw1, -⟩, -⟩ := hw
    rw [List.append_assoc, List.append_assoc]
    exact LWave.ne hw1 h1 h2
  obtain ⟨td, md, fd⟩ := delay_rd g hM hd (R := (ww ++ ws) ++ R) (by omega) (by rw [List.append_assoc]; exact hne _ rfl (by decide) _)
    (by rw [List.append_assoc]; exact hne _ rfl (by decide) _) (by rw [List.append_assoc]; exact hne _ rfl (by decide) _)
  obtain ⟨tw, mw, fw⟩ := selected_rd g hM (fun b u R hb hk hR => waveform_rd g hM hb hk hR) hw (R := ws ++ R) (by omega) (Nx.one hs (by decide))
  have hx : Nx [.kw .WITH] ((u1 ++ (u2 ++ (u3 ++ (u4 ++ (wt ++ (wa ++ (wd ++ (ww ++ ws)))))))) ++ R) := Nx.cat h1 (by decide)
  have hn := target_no (M := M) hx (by decide)
  have hg : next ((wd ++ (ww ++ ws)) ++ R) ≠ some (.kw .GUARDED) := by
    rw [List.append_assoc, List.append_assoc]
    exact delay_ng hd (hne _ rfl (by decide) _)
  refine ⟨.assignSel false false te q tt td tw, ⟨fun B l => ?_, fun l hok => ?_⟩, hx.noLab (by decide) (by decide),
    Rd.orN (process_no (hx.not (by decide)) (hx.not (by decide))) (Rd.orN ((flag_skip (hx.not (by decide))).trans (bind_nil (name_nil hx (by decide))))
      (Rd.orN (assertion_no (hx.not (by decide)) (hx.not (by decide))) (flag_rd0 (hx.not (by decide)) (Rd.orN (bind_nil hn) ?_)))),
    fun _ _ => st_block.no hx (by decide), fun _ => inst_no' hx (by decide) (by decide), fun _ _ => st_gen.no hx (by decide)⟩
  · have : evSigAssign A B (.sel te q tt td tw) = LAssign.eval A B (.waveSel c q x dl y) := by
      simp only [evSigAssign, LAssign.eval]
      refine sel_eq (f := fun w => evDelay A B td (B.sig (evTarget A tt) (evWaveform A w)))
        (f' := fun w => LDelay.eval A B dl (B.sig (LTarget.eval A x) (LWave.eval A w))) (fun a b h => ?_) me q mw
      simp only [md.ev, mt.ev, h.ev]
    simp only [evConcKind, evFlag, LConc.eval, this]
    cases l <;> rfl
  · simp only [LConc.Ok] at hok
    obtain ⟨k1, k2, k3, k4, k5, k6⟩ := hok
    refine ⟨rfl, rfl, md.no k1, k2, me.ok k3, mt.ok k4, fun p hp => ?_, ?_⟩
    · obtain ⟨b, hb, hm⟩ := fall_mem mw hp
      exact ⟨hm.1.ok (k5 b hb).1, choices_ok hm.2 (k5 b hb).2⟩
    · have := others_eq (fall_dropLast (fall_flat mw))
      simp only [nOthers]
      rw [this, List.length_eq_zero_iff, List.filter_eq_nil_iff]
      intro a ha
      rw [k6 a ha]; simp
  · rw [show u1 ++ (u2 ++ (u3 ++ (u4 ++ (wt ++ (wa ++ (wd ++ (ww ++ ws))))))) = (u1 ++ (u2 ++ (u3 ++ u4))) ++ (wt ++ (wa ++ (wd ++ (ww ++ ws)))) from by simp]
    exact Rd.bindN fe (Rd.bindN ft (Rd.tok ha (flag_rd0 hg (Rd.bindN fd (Rd.head fw (Rd.last hs) fun _ s hs => bind_nil (dch_tok hs (by decide)))))))

end

end Verif.Vhdl
