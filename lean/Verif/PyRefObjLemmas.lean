import Verif.PyRefExprLemmas
/-!
# Reference counts in the conversion of objects
-/
namespace Verif.PyRef
open Verif Spec

variable {dec : Str → Option Str} {ptr : FnHead → Bool}

theorem propOptE_step {m : Nat} (e : Expr) : Step m (propOptE dec (.obj m) e) (st (pyOpt dec e)) (leaksE e) (noDef e) := by
  by_cases he : e = .null
  · subst he
    simp only [leaksE, propOptE]
    exact (nil_step m).cast rfl rfl fun _ _ => trivial
  · have h1 : propOptE dec (.obj m) e = propR (.obj m) (exprR dec e) := by cases e <;> first | rfl | exact absurd rfl he
    have h2 : pyOpt dec e = (toPy dec e >>= fun p => pure p.up) := by cases e <;> first | rfl | exact absurd rfl he
    rw [h1, h2, st_map]
    exact prop_step (exprR_runs e)

theorem nameR_step {m : Nat} (s : Str) : Step m (nameR dec (.obj m) s) (st (pyName dec s)) 0 True := by
  cases s with
  | nil => exact (seq_step (nil_step m) (prop_step (posR_runs none))).cast rfl rfl fun _ _ => ⟨rfl, trivial⟩
  | cons c s =>
    refine (seq_step (prop_step (strR_runs (c :: s))) (prop_step (posR_runs none))).cast ?_ rfl fun _ _ => seqc_of trivial rfl trivial
    rw [seqv_none]
    exact (st_map _ _).symm

theorem dirR_runs (d : Dir) : RunsR (dirR d) (st (pyDir d)) 0 True := by
  cases d <;> first | exact globR_runs _ _ | exact fail_runs _

theorem flagsR_step {m : Nat} (a b c d e : Bool) (dir : Dir) : Step m (flagsR (.obj m) a b c d e dir) (st (pyDir dir)) 0 True :=
  (seq_step (prop_step (boolR_runs a)) (seq_step (prop_step (boolR_runs b)) (seq_step (prop_step (boolR_runs c)) (seq_step (prop_step (boolR_runs d))
    (seq_step (prop_step (boolR_runs e)) (prop_step (dirR_runs dir))))))).cast rfl rfl fun _ _ => ⟨rfl, rfl, rfl, rfl, rfl, trivial⟩

theorem idDefR_runs (d : IdDef) : RunsR (idDefR dec d) (st (pyIdDef dec d)) (leaksId d) (noDef d.type ∧ noDef d.value) := by
  refine (inst_runs fun _ => seq_step (nameR_step d.name) (seq_step (propOptE_step d.type) (seq_step (propOptE_step d.value)
    (flagsR_step _ _ _ _ _ _)))).cast ?_ ?_ fun _ h => seqc_of trivial rfl (seqc_of h.1 (noDef_leaks _ h.1) (seqc_of h.2 (noDef_leaks _ h.2) trivial))
  · simp only [pyIdDef]
    rw [st_bind fun a => st_bind fun b => st_bind fun c => st_map _ _]
  · simp only [leaksId]; omega

theorem idDefsR_loop (l : Ref) : ∀ ds : List IdDef, Loop l (idDefsR dec l ds) (st (pyIdDefs dec ds)) (leaksIds ds) False
  | [] => by simp only [idDefsR, pyIdDefs, leaksIds]; exact (nil_loop l).cast rfl rfl fun _ _ => trivial
  | d :: ds => by
    simp only [idDefsR, pyIdDefs, leaksIds]
    refine (seq_loop (append_loop (idDefR_runs d)) (idDefsR_loop l ds)).cast ?_ rfl fun _ => False.elim
    rw [st_bind fun a => st_map _ _]

theorem strsR_loop (l : Ref) : ∀ ss : List Str, Loop l (strsR dec l ss) (st (pyStrs dec ss)) 0 True
  | [] => by simp only [strsR, pyStrs]; exact (nil_loop l).cast rfl rfl fun _ _ => trivial
  | s :: ss => by
    simp only [strsR, pyStrs]
    refine (seq_loop (append_loop (strR_runs s)) (strsR_loop l ss)).cast ?_ rfl fun _ _ => seqc_of trivial rfl trivial
    rw [st_bind fun a => st_map _ _]

theorem infoR_step {m : Nat} (f : StmInfo) : Step m (infoR dec (.obj m) f) (st (pyInfo dec f)) 1 False := by
  refine (seq_step (arr_step fun l => strsR_loop l f.labels) (seq_step (prop_step (boolR_runs f.preproc)) (prop_step (posR_runs none)))).cast ?_ rfl
    fun _ => False.elim
  simp only [pyInfo, st_map]
  rw [seqv_none, seqv_none]

theorem fill_eq (l : List Expr) : st (pyExprs dec l) = st (toPyList dec l) := by simp only [pyExprs]; exact st_map _ _

theorem sensR_step {m : Nat} (l : Option (List Expr)) : Step m (sensR dec (.obj m) l) (st (pySens dec l)) (leaksEs (l.getD [])) False := by
  cases l with
  | none => simp only [sensR, pySens, Option.getD_none, leaksEs]; exact (nil_step m).cast rfl rfl fun _ => False.elim
  | some l =>
    simp only [sensR, pySens, Option.getD_some, fill_eq]
    intro s hm
    have hn : new s = ({ next := s.next + 1, log := (.obj s.next, 1) :: s.log }, .ok (.obj s.next)) := rfl
    have h := appendsR_loop (dec := dec) (.obj s.next) l (({ next := s.next + 1, log := (.obj s.next, 1) :: s.log } : St).dec (.obj s.next))
    have hnet : ∀ t, net (({ next := s.next + 1, log := (.obj s.next, 1) :: s.log } : St).dec (.obj s.next)) t = net s t := by
      intro t; rw [net_dec, net_new]; omega
    have hx : (({ next := s.next + 1, log := (.obj s.next, 1) :: s.log } : St).dec (.obj s.next)).next = s.next + 1 := rfl
    generalize ({ next := s.next + 1, log := (.obj s.next, 1) :: s.log } : St) = s1 at *
    revert h
    generalize st (toPyList dec l) = v
    intro h
    cases v with
    | none =>
      obtain ⟨s', L, h1, h2, h3, h4, h5⟩ := h
      refine ⟨s', L, by rw [bind_okM hn, bind_okM (decref_eq _ _), onFail_ok h1], by omega, h3, fun t ht ho => h4 t ht (old_mono ho (by omega)), fun t => ?_⟩
      rw [h5, hnet]
    | some e =>
      obtain ⟨s', h1, h2, h3⟩ := h
      by_cases he : e = .ub
      · subst he
        exact ⟨s', by rw [bind_okM hn, bind_okM (decref_eq _ _), onFail_ub h1], by omega, fun h => absurd rfl h⟩
      · refine ⟨s'.dec (.obj m), by rw [bind_okM hn, bind_okM (decref_eq _ _), onFail_err h1 he (decref_eq _ _)], by simp only [next_dec]; omega,
          fun _ => ⟨False.elim, fun t ht => ?_⟩⟩
        rw [net_dec, h3 he t (.inr (old_mono ht (by omega))), hnet]
        have : ∀ n, m ≤ n → one (.obj n) t = 0 := by
          intro n hn
          simp only [one]
          split
          · rename_i h; subst h; obtain ⟨_, h1, h2⟩ := ht; simp [Ref.idx] at h1; omega
          · rfl
        rw [this m (Nat.le_refl _), this s.next hm.le]; omega

theorem importR_hold (l : List Expr) : Hold (fun _ => 0) True (importR dec l) (st (toPyList dec l)) (leaksEs l) (noDefs l) := by
  have h1 : importR dec l = (new >>= fun p => onFail (appendsR dec p l) (pure ()) >>= fun _ => new >>= fun i => decref p >>= fun _ => pure i) := by
    simp only [importR]
    congr; funext p
    have : onFail (appendsR dec p l) (pure ()) = appendsR dec p l := by
      funext s
      simp only [onFail]
      split
      · rename_i h; exact h.symm
      · rename_i h; exact h.symm
      · rename_i h; rw [h]; rfl
    rw [this]
  rw [h1]
  refine (hold_bind_ok (G := fun _ => 0) new_runs fun p => ?_).congr (fun _ => rfl) rfl (Nat.zero_add _) fun _ h => ⟨rfl, h⟩
  refine (hold_loop (G := fun _ => 0) (appendsR_loop p l) (rel_pure ()) (hold_new fun i => rel_dec p (rel_pure i))).congr (fun t => rfl) (seqv_none _) rfl
    fun hv hc => seqc_of hc (noDefs_leaks l hc) trivial

theorem assocM {α β γ : Type} (x : M α) (f : α → M β) (g : β → M γ) : (x >>= f >>= g) = (x >>= fun a => f a >>= g) := by
  funext s
  simp only [bind_def, M.bind]
  cases h : x s with
  | mk s' r => cases r <;> rfl

theorem pure_bindM {α β : Type} (a : α) (f : α → M β) : (pure a >>= f) = f a := rfl

theorem ubv_ubv (v : Option PyErr) : ubv (ubv v) = ubv v := by cases v <;> rfl

theorem delay_hold {G : Ref → Int} {N : Prop} {f : Ref → M Ref} {w : Option PyErr} {k' : Nat} {c' : Prop} (dl : Expr)
    (hf : ∀ r, Hold (fun t => G t + one r t) N (f r) w k' c') :
    Hold G N (delayR dec dl >>= f) (seqv (st (ubFail (pyOpt dec dl))) w) (leaksE dl + k') (leaksE dl = 0 ∧ c') := by
  by_cases he : dl = .null
  · subst he
    exact hold_bind_ok noneR_runs hf
  · have h1 : delayR dec dl = nullFail (exprR dec dl) := by cases dl <;> first | rfl | exact absurd rfl he
    have h2 : pyOpt dec dl = (toPy dec dl >>= fun p => pure p.up) := by cases dl <;> first | rfl | exact absurd rfl he
    rw [h1, st_ubFail, h2, st_map]
    exact hold_bind_ub (exprR_runs dl) hf

theorem assignEnd_none (src dst delay : Ref) (b : Bool) :
    Hold (fun t => one delay t + one dst t + one src t) True (assignEnd src dst delay none b) none 0 True := by
  refine (hold_new fun i => rel_dec src (rel_dec dst (rel_dec delay (rel_glob _ _ (rel_pure i))))).congr (fun t => ?_) rfl rfl fun _ => id
  beta_reduce; omega

theorem assignEnd_some (src dst delay ev : Ref) (b : Bool) :
    Hold (fun t => one delay t + one dst t + one src t + one ev t) True (assignEnd src dst delay (some ev) b) none 0 True := by
  refine (hold_new fun i => rel_dec src (rel_dec dst (rel_dec delay (rel_dec ev (rel_glob _ _ (rel_pure i)))))).congr (fun t => ?_) rfl rfl fun _ => id
  beta_reduce; omega

theorem events_hold (src dst delay : Ref) (ev : Option (List Expr)) (b : Bool) :
    Hold (fun t => one delay t + one dst t + one src t) True (eventsR dec src dst delay ev >>= fun ev => assignEnd src dst delay ev b)
      (st (pyEvents dec ev)) (leaksEs (ev.getD [])) False := by
  match ev with
  | none =>
    simp only [eventsR, pyEvents, Option.getD_none, leaksEs, pure_bindM]
    exact (assignEnd_none src dst delay b).congr (fun _ => rfl) rfl rfl fun _ => False.elim
  | some [] =>
    simp only [eventsR, pyEvents, Option.getD_some, leaksEs, pure_bindM]
    exact (assignEnd_none src dst delay b).congr (fun _ => rfl) rfl rfl fun _ => False.elim
  | some (e :: l) =>
    simp only [eventsR, pyEvents, Option.getD_some, assocM, pure_bindM, fill_eq]
    refine (hold_bind_ok (c' := noDefs (e :: l)) new_runs fun r => ?_).congr (fun _ => rfl) rfl (Nat.zero_add _) fun _ => False.elim
    refine (hold_loop (fillR_loop r (e :: l)) ?_ (assignEnd_some src dst delay r b)).congr (fun _ => rfl) (seqv_none _) rfl
      fun _ h => seqc_of h (noDefs_leaks _ h) trivial
    refine Rel.congr (rel_dec src (rel_dec dst (rel_dec1 delay))) fun t => ?_
    omega

theorem assignR_hold (d s dl : Expr) (ev : Option (List Expr)) (b : Bool) :
    Hold (fun _ => 0) True (assignR dec d s dl ev b)
      (seqv (st (ubFail (toPy dec s))) (seqv (st (ubFail (toPy dec d))) (seqv (st (ubFail (pyOpt dec dl))) (st (pyEvents dec ev)))))
      (leaksE s + (leaksE d + (leaksE dl + leaksEs (ev.getD [])))) False := by
  rw [assignR, st_ubFail, st_ubFail]
  refine (hold_bind_ub (exprR_runs s) fun src => hold_bind_ub (exprR_runs d) fun dst => delay_hold dl fun delay =>
    (events_hold src dst delay ev b).congr (fun t => ?_) rfl rfl fun _ => id).congr (fun _ => rfl) rfl rfl fun _ => False.elim
  beta_reduce; omega

theorem notNullR_step {m : Nat} (o : Obj) : Step m (notNullR o) (st (notNull o)) 0 True := by
  by_cases h : o = .null
  · subst h
    exact fun s _ => ⟨s, rfl, Nat.le_refl _, fun h => absurd rfl h⟩
  · have h1 : notNullR o = pure () := by cases o <;> first | rfl | exact absurd rfl h
    have h2 : notNull o = .ok () := by cases o <;> first | rfl | exact absurd rfl h
    rw [h1, h2]
    exact nil_step m

theorem uniqR_step {m : Nat} (u : Uniq) : Step m (enumR (.obj m) u.attr) none 0 True := by
  cases u <;> first | exact nil_step m | exact prop_step (globR_runs _ _)

theorem triggerR_step {m : Nat} (u : Trigger) : Step m (enumR (.obj m) u.attr) none 0 True := by
  cases u <;> first | exact nil_step m | exact prop_step (globR_runs _ _)

theorem paramsR_step {m : Nat} (h : FnHead) : Step m (paramsR dec ptr (.obj m) h) (st (pyIdDefs dec h.params)) (leaksParams ptr h) False := by
  rcases h with ⟨n, r, ps, _, _, _, _, _, _⟩
  cases ps with
  | nil =>
    simp only [paramsR, leaksParams]
    split
    · rename_i hb; rw [hb]; exact (nil_step m).cast rfl (by simp) fun _ => False.elim
    · rename_i h2
      split
      · exact (arr_step fun l => idDefsR_loop l []).cast rfl (by simp [leaksIds]) fun _ => id
      · rename_i h3; exact absurd (by simpa using h3) (h2 rfl)
  | cons p ps =>
    simp only [paramsR, leaksParams]
    exact arr_step fun l => idDefsR_loop l (p :: ps)

/-- `objR_runs` for objects that are not null. -/
theorem optR_step {m : Nat} (o : Obj) (h : RunsR (objR dec ptr o) (st (toPyO dec o)) (leaks ptr o) (clean dec o)) :
    Step m (propOptO dec ptr (.obj m) o) (st (toPyOpt dec o)) (leaks ptr o) False := by
  by_cases h0 : o = .null
  · subst h0
    simp only [propOptO, toPyOpt, leaks]
    exact (nil_step m).cast rfl rfl fun _ => False.elim
  · have h1 : propOptO dec ptr (.obj m) o = propR (.obj m) (objR dec ptr o) := by
      cases o <;> first | exact absurd rfl h0 | simp only [propOptO]
    have h2 : toPyOpt dec o = toPyO dec o := by cases o <;> first | exact absurd rfl h0 | simp only [toPyOpt]
    rw [h1, h2]
    exact (prop_step h).cast rfl rfl fun _ => False.elim

theorem seqc_fail {v w : Option PyErr} {k : Nat} {c c' : Prop} (hv : seqv v w ≠ none) (hc : c) (hk : k = 0) (hc' : w ≠ none → c') :
    seqc v k c c' := by
  cases v
  · exact ⟨hk, hc' hv⟩
  · exact hc

theorem seqc_last {v : Option PyErr} {k : Nat} {c c' : Prop} (hv : v ≠ none) (hc : c) : seqc v k c c' := by
  cases v
  · exact absurd rfl hv
  · exact hc

theorem seqv_assoc (a b c : Option PyErr) : seqv (seqv a b) c = seqv a (seqv b c) := by cases a <;> rfl

theorem labels_info {i : StmInfo} (h : labelsOk dec i) : st (pyInfo dec i) = none := by
  obtain ⟨p, hp⟩ := h
  simp only [pyInfo, hp]
  rfl

theorem ok_st {α : Type} {x : Except PyErr α} (h : ∃ a, x = .ok a) : st x = none := by
  obtain ⟨a, h⟩ := h
  rw [h]; rfl

mutual
theorem objR_runs : ∀ o : Obj, RunsR (objR dec ptr o) (st (toPyO dec o)) (leaks ptr o) (clean dec o)
  | .null => by simp only [objR, toPyO, leaks]; exact (fail_runs _).cast rfl rfl fun _ _ => trivial
  | .id d => by simp only [objR, toPyO, leaks, clean]; exact idDefR_runs d
  | .record n ms => by
    simp only [objR, toPyO, leaks, clean]
    refine (inst_runs fun _ => seq_step (nameR_step n) (seq_step (prop_step (symbR_runs _)) (seq_step (prop_step (inst_runs fun _ =>
      seq_step (prop_step (globR_runs _ _)) (arr_step fun l => idDefsR_loop l ms))) (flagsR_step _ _ _ _ _ _)))).cast ?_ (by omega) fun _ => False.elim
    rw [st_bind fun _ => st_map _ _]
    exact congrArg (seqv _) (seqv_none _)
  | .fn h body => by
    simp only [objR, toPyO, leaks, clean]
    refine (inst_runs fun _ => seq_step (nameR_step h.name) (seq_step (prop_step (boolR_runs _)) (seq_step (prop_step (boolR_runs _))
      (seq_step (prop_step (boolR_runs _)) (seq_step (prop_step (boolR_runs _)) (seq_step (prop_step (boolR_runs _)) (seq_step (prop_step (boolR_runs _))
        (seq_step (paramsR_step h) (seq_step (propOptE_step h.ret) (arr_step fun l => objsR_loop l body)))))))))).cast ?_ (by omega) fun _ => False.elim
    rw [st_bind fun _ => st_bind fun _ => st_bind fun _ => st_map _ _]
    rfl
  | .inst n m g p => by
    simp only [objR, toPyO, leaks, clean]
    refine (inst_runs fun _ => seq_step (prop_step (exprR_runs n)) (seq_step (prop_step (exprR_runs m)) (seq_step (arr_step fun l => appendsR_loop l g)
      (arr_step fun l => appendsR_loop l p)))).cast ?_ rfl fun hv h => ?_
    · rw [st_bind fun _ => st_bind fun _ => st_bind fun _ => st_map _ _]
      simp only [fill_eq]
    · rw [st_bind fun _ => st_bind fun _ => st_bind fun _ => st_map _ _, fill_eq, fill_eq, ok_st h.2.2.1, ok_st h.2.2.2] at hv
      refine seqc_fail hv h.1 (noDef_leaks _ h.1) fun hw => seqc_last (fun hn => ?_) h.2.1
      rw [hn] at hw; exact hw rfl
  | .modDec n g p os => by
    simp only [objR, toPyO, leaks, clean]
    refine (inst_runs fun _ => seq_step (nameR_step n) (seq_step (arr_step fun l => idDefsR_loop l g) (seq_step (arr_step fun l => idDefsR_loop l p)
      (arr_step fun l => objsR_loop l os)))).cast ?_ (by omega) fun _ => False.elim
    rw [st_bind fun _ => st_bind fun _ => st_bind fun _ => st_map _ _]
  | .modDef n m d os => by
    simp only [objR, toPyO, leaks, clean]
    refine (inst_runs fun _ => seq_step (nameR_step n) (seq_step (propOptE_step m) (seq_step (optR_step d (objR_runs d))
      (arr_step fun l => objsR_loop l os)))).cast ?_ (by omega) fun _ => False.elim
    rw [st_bind fun _ => st_bind fun _ => st_bind fun _ => st_map _ _]
  | .assign f d s dl ev b => by
    simp only [objR, toPyO, leaks, clean]
    refine (hold_inst (assignR_hold d s dl ev b) fun _ => infoR_step f).cast ?_ (by omega) fun _ => False.elim
    rw [st_bind fun _ => st_bind fun _ => st_bind fun _ => st_bind fun _ => st_map _ _]
    simp only [seqv_assoc]
  | .block f j os => by
    simp only [objR, toPyO, leaks, clean]
    refine (inst_runs fun _ => seq_step (prop_step (globR_runs _ _)) (seq_step (arr_step fun l => objsR_loop l os) (infoR_step f))).cast ?_ (by omega)
      fun _ => False.elim
    rw [st_bind fun _ => st_map _ _]
    rfl
  | .case f u t s cs d => by
    simp only [objR, toPyO, leaks, clean]
    refine (inst_runs fun _ => seq_step (uniqR_step u) (seq_step (prop_step (globR_runs _ _)) (seq_step (prop_step (exprR_runs s))
      (seq_step (arr_step fun l => branchesR_loop l cs) (seq_step (optR_step d (objR_runs d)) (infoR_step f)))))).cast ?_ (by omega) fun _ => False.elim
    rw [st_bind fun _ => st_bind fun _ => st_bind fun _ => st_map _ _]
    rfl
  | .expr _ e => by
    simp only [objR, toPyO, leaks, clean]
    exact (exprR_runs e).cast (st_map _ _).symm rfl fun _ => id
  | .for_ f a c s b => by
    simp only [objR, toPyO, leaks, clean]
    refine (inst_runs fun _ => seq_step (notNullR_step a) (seq_step (prop_step (objR_runs a)) (seq_step (prop_step (exprR_runs c))
      (seq_step (notNullR_step s) (seq_step (prop_step (objR_runs s)) (seq_step (prop_step (objR_runs b)) (infoR_step f))))))).cast ?_ (by omega)
      fun _ => False.elim
    rw [st_bind fun _ => st_bind fun _ => st_bind fun _ => st_bind fun _ => st_bind fun _ => st_bind fun _ => st_map _ _]
  | .forIn f vs c b => by
    simp only [objR, toPyO, leaks, clean]
    refine (inst_runs fun _ => seq_step (arr_step fun l => objsR_loop l vs) (seq_step (prop_step (exprR_runs c)) (seq_step (prop_step (objR_runs b))
      (infoR_step f)))).cast ?_ (by omega) fun _ => False.elim
    rw [st_bind fun _ => st_bind fun _ => st_bind fun _ => st_map _ _]
  | .repeat_ f n b => by
    simp only [objR, toPyO, leaks, clean]
    refine (inst_runs fun _ => seq_step (prop_step (exprR_runs n)) (seq_step (prop_step (objR_runs b)) (infoR_step f))).cast ?_ rfl fun hv h => ?_
    · rw [st_bind fun _ => st_bind fun _ => st_map _ _]
    · rw [st_bind fun _ => st_bind fun _ => st_map _ _, labels_info h.2.2, seqv_none] at hv
      exact seqc_fail hv h.1 (noDef_leaks _ h.1) fun hw => seqc_last hw h.2.1
  | .while_ f c b => by
    simp only [objR, toPyO, leaks, clean]
    refine (inst_runs fun _ => seq_step (prop_step (exprR_runs c)) (seq_step (notNullR_step b) (seq_step (prop_step (objR_runs b)) (infoR_step f)))).cast
      ?_ (by omega) fun hv h => ?_
    · rw [st_bind fun _ => st_bind fun _ => st_bind fun _ => st_map _ _]
    · rw [st_bind fun _ => st_bind fun _ => st_bind fun _ => st_map _ _, labels_info h.2.2, seqv_none] at hv
      exact seqc_fail hv h.1 (noDef_leaks _ h.1) fun hw => seqc_fail hw trivial rfl fun hw => seqc_last hw h.2.1
  | .doWhile _ _ _ => by simp only [objR, toPyO, leaks]; exact (fail_runs _).cast rfl rfl fun _ _ => trivial
  | .if_ f c t el e => by
    simp only [objR, toPyO, leaks, clean]
    refine (inst_runs fun _ => seq_step (prop_step (exprR_runs c)) (seq_step (prop_step (objR_runs t)) (seq_step (arr_step fun l => branchesR_loop l el)
      (seq_step (optR_step e (objR_runs e)) (infoR_step f))))).cast ?_ (by omega) fun _ => False.elim
    rw [st_bind fun _ => st_bind fun _ => st_bind fun _ => st_bind fun _ => st_map _ _]
  | .process f t s b => by
    simp only [objR, toPyO, leaks, clean]
    refine (inst_runs fun _ => seq_step (triggerR_step t) (seq_step (sensR_step s) (seq_step (notNullR_step b) (seq_step (prop_step (objR_runs b))
      (infoR_step f))))).cast ?_ (by omega) fun _ => False.elim
    rw [st_bind fun _ => st_bind fun _ => st_bind fun _ => st_map _ _]
    rfl
  | .break_ f => by
    simp only [objR, toPyO, leaks, clean]
    exact (inst_runs fun _ => infoR_step f).cast (st_map _ _).symm rfl fun _ => False.elim
  | .continue_ f => by
    simp only [objR, toPyO, leaks, clean]
    exact (inst_runs fun _ => infoR_step f).cast (st_map _ _).symm rfl fun _ => False.elim
  | .nop f => by
    simp only [objR, toPyO, leaks, clean]
    exact (inst_runs fun _ => infoR_step f).cast (st_map _ _).symm rfl fun _ => False.elim
  | .import_ f l => by
    simp only [objR, toPyO, leaks, clean]
    refine (hold_inst (importR_hold l) fun _ => infoR_step f).cast ?_ rfl fun hv h => ?_
    · rw [st_bind fun _ => st_map _ _, fill_eq]
    · rw [st_bind fun _ => st_map _ _, labels_info h.2, seqv_none, fill_eq] at hv
      exact seqc_last hv h.1
  | .return_ f v => by
    simp only [objR, toPyO, leaks, clean]
    refine (inst_runs fun _ => seq_step (propOptE_step v) (infoR_step f)).cast ?_ rfl fun hv h => ?_
    · rw [st_bind fun _ => st_map _ _]
    · rw [st_bind fun _ => st_map _ _, labels_info h.2, seqv_none] at hv
      exact seqc_last hv h.1
  | .wait f es => by
    simp only [objR, toPyO, leaks, clean]
    refine (inst_runs fun _ => seq_step (arr_step fun l => appendsR_loop l es) (infoR_step f)).cast ?_ rfl fun _ => False.elim
    rw [st_bind fun _ => st_map _ _, fill_eq]
  | .idspace n d os => by
    simp only [objR, toPyO, leaks, clean]
    refine (inst_runs fun _ => seq_step (nameR_step n) (seq_step (arr_step fun l => objsR_loop l os) (prop_step (boolR_runs d)))).cast ?_ (by omega)
      fun _ => False.elim
    rw [st_bind fun _ => st_map _ _, seqv_none]
  | .library n => by
    simp only [objR, toPyO, leaks, clean]
    exact (leak_runs noneR_runs (inst_runs fun _ => nameR_step n)).cast (st_map _ _).symm rfl fun _ => False.elim
theorem objsR_loop (l : Ref) : ∀ os : List Obj, Loop l (objsR dec ptr l os) (st (toPyOs dec os)) (leaksOs ptr os) False
  | [] => by simp only [objsR, toPyOs, leaksOs]; exact (nil_loop l).cast rfl rfl fun _ _ => trivial
  | o :: os => by
    simp only [objsR, toPyOs, leaksOs]
    refine (seq_loop (append_loop (objR_runs o)) (objsR_loop l os)).cast ?_ rfl fun _ => False.elim
    rw [st_bind fun a => st_map _ _]
theorem branchesR_loop (l : Ref) : ∀ bs : List Branch, Loop l (branchesR dec ptr l bs) (st (toPyBs dec bs)) (leaksBs ptr bs) False
  | [] => by simp only [branchesR, toPyBs, leaksBs]; exact (nil_loop l).cast rfl rfl fun _ _ => trivial
  | .mk e o :: bs => by
    simp only [branchesR, toPyBs, leaksBs]
    refine (seq_loop (append_loop (inst_runs fun _ => seq_step (setItem_step (exprR_runs e)) (setItem_step (objR_runs o)))) (branchesR_loop l bs)).cast ?_ rfl
      fun _ => False.elim
    rw [st_bind fun a => st_bind fun _ => st_map _ _, seqv_assoc]
end

end Verif.PyRef
