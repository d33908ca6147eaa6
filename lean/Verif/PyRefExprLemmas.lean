import Verif.PyRefLemmas
import Verif.ToPyObjLemmas
/-!
# Reference counts in the conversion of expressions
-/
namespace Verif.PyRef
open Verif Spec

theorem st_bind {α β : Type} {x : Except PyErr α} {f : α → Except PyErr β} {w : Option PyErr} (h : ∀ a, st (f a) = w) :
    st (x >>= f) = seqv (st x) w := by
  cases x with
  | error e => rfl
  | ok a => exact h a

theorem st_pure {α : Type} (a : α) : st (pure a : Except PyErr α) = none := rfl

theorem seqv_none (v : Option PyErr) : seqv v none = v := by cases v <;> rfl

theorem st_map {α β : Type} (x : Except PyErr α) (f : α → β) : st (x >>= fun a => pure (f a)) = st x := by
  rw [st_bind (w := none) fun _ => rfl, seqv_none]

theorem st_ubFail {α : Type} (x : Except PyErr α) : st (ubFail x) = ubv (st x) := by cases x <;> rfl

variable {dec : Str → Option Str}

theorem strR_runs (s : Str) : RunsR (strR dec s) (st (pyUnicode dec s)) 0 True := by
  simp only [strR, pyUnicode]
  cases dec (s.takeWhile (· ≠ '\x00')) with
  | none => exact fail_runs _
  | some t => exact new_runs

theorem numR_runs (n : Option Nat) : RunsR (numR n) none 0 True := by
  cases n
  · exact noneR_runs
  · exact new_runs

theorem posR_runs (p : Option CodePos) : RunsR (posR p) none 0 True :=
  (inst_runs fun _ => seq_step (prop_step (numR_runs _)) (seq_step (prop_step (numR_runs _)) (seq_step (prop_step (numR_runs _))
    (prop_step (numR_runs _))))).cast rfl rfl (by simp [seqc])

theorem symbR_runs (k : Symb) : RunsR (symbR k) none 0 True := by
  cases k <;> first | exact noneR_runs | exact globR_runs _ _

theorem ite_new_runs (b : Prop) [Decidable b] : RunsR (if b then new else noneR) none 0 True := by
  split
  · exact new_runs
  · exact noneR_runs

theorem intR_runs (v : IntVal) : RunsR (intR dec v) (st (pyInt dec v)) 0 True := by
  have h : RunsR (if v.int.base ≠ -1 then strR dec v.int.bitstring else new)
      (st (if v.int.base ≠ -1 then pyUnicode dec v.int.bitstring else .ok (.long v.int.val))) 0 True := by
    split
    · exact strR_runs _
    · exact new_runs
  refine (hold_runs (hold_bind0 h fun a => hold_bind_ok (ite_new_runs _) fun b => hold_bind_ok (ite_new_runs _) fun c =>
    (hold_new fun r => (rel_dec a (rel_dec c (rel_dec b (rel_pure r))))).congr (fun t => ?_) rfl rfl fun _ => id)).cast ?_ rfl ?_
  · beta_reduce; omega
  · simp only [pyInt]
    rw [st_map, seqv_none]
  · intro _
    cases st (if v.int.base ≠ -1 then pyUnicode dec v.int.bitstring else .ok (.long v.int.val)) <;> simp [seqc]

theorem idR_runs (s : Str) : RunsR (strR dec s >>= fun v => new >>= fun res => decref v >>= fun _ => pure res) (st (pyUnicode dec s)) 0 True := by
  refine (hold_runs (hold_bind0 (strR_runs s) fun a => hold_new fun r => rel_dec a (rel_pure r))).cast (seqv_none _) rfl ?_
  cases st (pyUnicode dec s) <;> simp [seqc]

mutual
theorem noDef_leaks : ∀ e : Expr, noDef e → leaksE e = 0
  | .null, _ | .id _ _, _ | .int _ _, _ | .float _ _, _ | .str _ _, _ | .symb _ _, _ | .notImpl _, _ => by simp [leaksE]
  | .arr _ l, h => by simp only [leaksE]; exact noDefs_leaks l (by simpa only [noDef] using h)
  | .op _ _ l, h => by simp only [leaksE]; exact noDefs_leaks l (by simpa only [noDef] using h)
  | .enumDef _ _ _ _ _, h => by simp only [noDef] at h
  | .physDef _ _ _ _ _, h => by simp only [noDef] at h
  | .classDef _ _ _ _ _ _ _, h => by simp only [noDef] at h
theorem noDefs_leaks : ∀ l : List Expr, noDefs l → leaksEs l = 0
  | [], _ => by simp [leaksEs]
  | e :: l, h => by
    simp only [noDefs] at h
    simp only [leaksEs, noDef_leaks e h.1, noDefs_leaks l h.2]
end

theorem opR_runs {n : Str} {l : List Expr} {v : Option PyErr} {k : Nat} {c : Prop} (h : ∀ r, Loop r (appendsR dec r l) v k c) :
    RunsR (do
      let fn ← globR (c! "HdlOpType") n
      let ops ← new
      onFail (appendsR dec ops l) (decref fn)
      let res ← new
      decref fn
      decref ops
      return res) v k c := by
  have hs : ∀ hv : v ≠ none, c → seqc v k c True := by
    intro hv hc
    cases v with
    | none => exact absurd rfl hv
    | some e => exact hc
  refine (hold_runs (N := True) (hold_bind_ok (G := fun _ => 0) (globR_runs _ _) fun fn => hold_bind_ok new_runs fun ops =>
    Hold.congr (c' := c) (hold_loop (h ops) (rel_dec1 fn) ((hold_new fun r => rel_dec fn (rel_dec ops (rel_pure r))).congr (fun t => ?_) rfl rfl
      fun _ => id)) (fun t => ?_) (seqv_none v) rfl hs)).cast rfl ?_ fun _ hc => ⟨rfl, rfl, hc⟩
  · beta_reduce; omega
  · beta_reduce; omega
  · omega

theorem pairNameR_runs (n : Option Str) : RunsR (pairNameR dec n) (st (pairName dec n)) 0 True := by
  cases n
  · exact noneR_runs
  · exact strR_runs _

/-- The value of a pair. -/
def pairValR (dec : Str → Option Str) : Expr → M Ref
  | .null => noneR
  | e => nullFail (exprR dec e)

theorem pairsR_eq (l : Ref) (n : Option Str) (ns : List (Option Str)) (e : Expr) (es : List Expr) :
    pairsR dec l (n :: ns) (e :: es) = (do
      appendR l (pairNameR dec n >>= fun _ => pairValR dec e >>= fun _ => new)
      pairsR dec l ns es) := by
  cases e <;> simp only [pairsR, pairValR]

theorem pairValR_runs {e : Expr} (h : RunsR (exprR dec e) (st (toPy dec e)) (leaksE e) (noDef e)) :
    RunsR (pairValR dec e) (st (pairVal dec e)) (leaksE e) True := by
  by_cases he : e = .null
  · subst he
    simp only [leaksE]
    exact noneR_runs
  · have h1 : pairValR dec e = nullFail (exprR dec e) := by cases e <;> first | rfl | exact absurd rfl he
    rw [h1, pairVal_ne he, st_ubFail]
    exact nullFail_runs h

theorem seqc_of {v : Option PyErr} {k : Nat} {c c' : Prop} (hc : c) (hk : k = 0) (hc' : c') : seqc v k c c' := by
  cases v
  · exact ⟨hk, hc'⟩
  · exact hc

mutual
theorem exprR_runs : ∀ e : Expr, RunsR (exprR dec e) (st (toPy dec e)) (leaksE e) (noDef e)
  | .null => by simp only [exprR, toPy, leaksE]; exact (fail_runs _).cast rfl rfl fun _ _ => trivial
  | .id _ s => by
    simp only [exprR, toPy, leaksE]
    exact (idR_runs s).cast (st_map _ _).symm rfl fun _ _ => trivial
  | .int _ v => by simp only [exprR, toPy, leaksE]; exact (intR_runs v).cast rfl rfl fun _ _ => trivial
  | .float _ _ => by simp only [exprR, toPy, leaksE]; exact new_runs.cast rfl rfl fun _ _ => trivial
  | .str _ s => by simp only [exprR, toPy, leaksE]; exact (strR_runs s).cast rfl rfl fun _ _ => trivial
  | .symb _ k => by simp only [exprR, toPy, leaksE]; exact (symbR_runs k).cast rfl rfl fun _ _ => trivial
  | .arr _ l => by
    simp only [exprR, toPy, leaksE, noDef]
    exact (inst_runs fun _ => loop_step (fillR_loop _ l)).cast (st_map _ _).symm rfl fun _ => id
  | .op _ o l => by
    obtain ⟨n, hn⟩ := opName_ok o
    simp only [exprR, toPy, hn, leaksE, noDef]
    exact (opR_runs fun r => appendsR_loop r l).cast (st_map _ _).symm rfl fun _ => id
  | .notImpl p => by
    simp only [exprR, toPy, leaksE]
    exact (inst_runs fun _ => prop_step (posR_runs p)).cast rfl rfl fun _ _ => trivial
  | .enumDef _ _ _ ns vs => by
    simp only [exprR, toPy, leaksE, noDef]
    exact (inst_runs fun _ => arr_step fun l => pairsR_loop l ns vs).cast (st_map _ _).symm rfl fun _ => id
  | .physDef _ _ r ns vs => by
    simp only [exprR, toPy, leaksE, noDef]
    refine (inst_runs fun _ => seq_step (prop_step (exprR_runs r)) (arr_step fun l => pairsR_loop l (ns.map some) vs)).cast ?_ rfl fun _ => False.elim
    rw [st_bind fun a => st_map _ _]
  | .classDef _ _ _ k ms _ _ => by
    simp only [exprR, toPy, leaksE, noDef]
    refine (inst_runs fun _ => seq_step (prop_step (globR_runs _ _)) (arr_step fun l => appendsR_loop l ms)).cast (st_map _ _).symm (by omega) fun _ => False.elim
theorem appendsR_loop (l : Ref) : ∀ es : List Expr, Loop l (appendsR dec l es) (st (toPyList dec es)) (leaksEs es) (noDefs es)
  | [] => by simp only [appendsR, toPyList, leaksEs]; exact (nil_loop l).cast rfl rfl fun _ _ => trivial
  | e :: es => by
    simp only [appendsR, toPyList, leaksEs, noDefs]
    refine (seq_loop (append_loop (exprR_runs e)) (appendsR_loop l es)).cast ?_ rfl fun _ h => seqc_of h.1 (noDef_leaks e h.1) h.2
    rw [st_bind fun a => st_map _ _]
theorem fillR_loop (l : Ref) : ∀ es : List Expr, Loop l (fillR dec l es) (st (toPyList dec es)) (leaksEs es) (noDefs es)
  | [] => by simp only [fillR, toPyList, leaksEs]; exact (nil_loop l).cast rfl rfl fun _ _ => trivial
  | e :: es => by
    simp only [fillR, toPyList, leaksEs, noDefs]
    refine (seq_loop (setItem_loop (exprR_runs e)) (fillR_loop l es)).cast ?_ rfl fun _ h => seqc_of h.1 (noDef_leaks e h.1) h.2
    rw [st_bind fun a => st_map _ _]
theorem pairsR_loop (l : Ref) : ∀ (ns : List (Option Str)) (es : List Expr), Loop l (pairsR dec l ns es) (st (toPyPairs dec ns es)) (leaksPs ns es) False
  | [], _ => by simp only [pairsR, toPyPairs, leaksPs]; exact (nil_loop l).cast rfl rfl fun _ _ => trivial
  | _ :: _, [] => by simp only [pairsR, toPyPairs, leaksPs]; exact (nil_loop l).cast rfl rfl fun _ _ => trivial
  | n :: ns, e :: es => by
    rw [pairsR_eq, toPyPairs_eq]
    simp only [leaksPs]
    refine (seq_loop (append_loop (leak_runs (pairNameR_runs n) (leak_runs (pairValR_runs (exprR_runs e)) new_runs))) (pairsR_loop l ns es)).cast ?_ (by omega)
      fun _ => False.elim
    rw [st_bind fun a => st_bind fun b => st_map _ _]
    cases st (pairName dec n) <;> cases st (pairVal dec e) <;> rfl
end

end Verif.PyRef
