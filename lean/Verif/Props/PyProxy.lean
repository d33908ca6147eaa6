import Verif.PyProxyLemmas
import Verif.PreprocTrace
import Verif.Props.MacroDef
import Verif.Props.Preproc
/-!
# Properties of the Python view of the macro database: C45, C46, C47, C53
-/
namespace Verif
open Spec

/-! ## Vocabulary: what a user sees -/

/-- The address belongs to a macro created by `` `define `` or from Python: a wrapper for it can exist. -/
def IsMacro (s : PySt) (i : Nat) : Prop := ∃ o m, s.heap[i]? = some o ∧ o.obj = .user m

/-- Wrappers used in an operation exist. -/
def PyOp.WellFormed (s : PySt) : PyOp → Prop
  | .set _ (.proxy i) => IsMacro s i
  | .setDefault _ (.proxy i) => IsMacro s i
  | .access i => IsMacro s i
  | .setPersistent i _ => IsMacro s i
  | _ => True

/-- States of a convertor object after any history of operations and runs. -/
inductive Reachable : PySt → Prop
  | empty : Reachable PySt.empty
  | step {s : PySt} (op : PyOp) : Reachable s → op.WellFormed s → Reachable (s.exec op)

/-- `db[k]`, `none` if this raises. -/
def seen (s : PySt) (k : Str) : Option PyVal :=
  match (s.getItem k).1 with
  | .ok v => some v
  | _ => none

/-- The macro behind a wrapper. -/
def macroOf (s : PySt) : PyVal → Option MacroDef
  | .proxy i =>
    match s.heap[i]? with
    | some ⟨.user m, _, _⟩ => some m
    | _ => none
  | _ => none

/-! ## Reachable states are valid -/

theorem valid_setFlag {s : PySt} (h : s.Valid) (i : Nat) (b : Bool) : (s.setFlag i b).Valid :=
  ⟨by rw [PySt.setFlag_db]; exact h.keys, by
    intro p hp
    rw [PySt.setFlag_db] at hp
    simpa [PySt.setFlag] using h.ptrs p hp⟩

theorem valid_store {s : PySt} (h : s.Valid) (k : Str) {i : Nat} (hi : i < s.heap.length) (b : Bool) :
    PySt.Valid { s.setFlag i b with db := PySt.assign s.db k i } := by
  refine ⟨PySt.assign_keys s k i h.keys, ?_⟩
  intro p hp
  have : p.2 < s.heap.length := by
    rcases (PySt.mem_assign s k i p).1 hp with rfl | ⟨hp, -⟩
    · exact hi
    · exact h.ptrs p hp
  simpa [PySt.setFlag] using this

theorem valid_touch {s : PySt} (h : s.Valid) (i : Nat) : (s.touch i).Valid :=
  ⟨by rw [PySt.touch_db]; exact h.keys, by rw [PySt.touch_db, PySt.touch_heap]; exact h.ptrs⟩

theorem valid_alloc {s : PySt} (h : s.Valid) (o : MacroObj) : (s.alloc o).2.Valid :=
  ⟨h.keys, fun p hp => by
    have := h.ptrs p hp
    simp only [PySt.alloc, List.length_append, List.length_singleton]; omega⟩

/-- What storing a value does: an exception, the end of the process, or the object is stored under the key. -/
theorem setItem_cases (s : PySt) (k : Str) (v : PyVal) :
    (∃ i, v = .proxy i ∧ s.setItem k v = (.ok (), { s.setFlag i true with db := PySt.assign s.db k i })) ∨
    (∃ t m, (v = .str t ∨ v = .none ∧ t = []) ∧ MacroDef.new k false [] t = .ok m ∧
      s.setItem k v = (.ok (), { (s.alloc (.user m)).2.setFlag s.heap.length true with db := PySt.assign s.db k s.heap.length })) ∨
    ((∀ t, v ≠ .str t) ∧ v ≠ .none ∧ (∀ i, v ≠ .proxy i) ∧ s.setItem k v = (.raise .typeError, s)) ∨
    (∃ t, (v = .str t ∨ v = .none ∧ t = []) ∧ (∃ e, MacroDef.new k false [] t = .error e) ∧ s.setItem k v = (.abort, s)) := by
  have hnew : ∀ t, (∃ m, MacroDef.new k false [] t = .ok m ∧ proxyNew s k none (.str t) = (.ok s.heap.length, (s.alloc (.user m)).2)) ∨
      (∃ e, MacroDef.new k false [] t = .error e ∧ proxyNew s k none (.str t) = (.abort, s)) := by
    intro t
    rcases new_cases k false [] t with ⟨m, hm⟩ | ⟨e, he⟩
    · exact .inl ⟨m, hm, by simp [proxyNew, cppParams, hm, PySt.alloc]⟩
    · exact .inr ⟨_, he, by simp [proxyNew, cppParams, he]⟩
  cases v with
  | proxy i => exact .inl ⟨i, rfl, rfl⟩
  | inaccessible => exact .inr (.inr (.inl ⟨by simp, by simp, by simp, rfl⟩))
  | other => exact .inr (.inr (.inl ⟨by simp, by simp, by simp, rfl⟩))
  | str t =>
    rcases hnew t with ⟨m, hm, hp⟩ | ⟨e, he, hp⟩
    · refine .inr (.inl ⟨t, m, .inl rfl, hm, ?_⟩)
      simp only [PySt.setItem, hp]; rfl
    · refine .inr (.inr (.inr ⟨t, .inl rfl, ⟨e, he⟩, ?_⟩))
      simp only [PySt.setItem, hp]
  | none =>
    have hsame : proxyNew s k none PyVal.none = proxyNew s k none (.str []) := rfl
    rcases hnew [] with ⟨m, hm, hp⟩ | ⟨e, he, hp⟩
    · refine .inr (.inl ⟨[], m, .inr ⟨rfl, rfl⟩, hm, ?_⟩)
      simp only [PySt.setItem, hsame, hp]; rfl
    · refine .inr (.inr (.inr ⟨[], .inr ⟨rfl, rfl⟩, ⟨e, he⟩, ?_⟩))
      simp only [PySt.setItem, hsame, hp]

theorem IsMacro.lt {s : PySt} {i : Nat} (h : IsMacro s i) : i < s.heap.length := by
  obtain ⟨o, m, h, -⟩ := h
  exact (List.getElem?_eq_some_iff.1 h).1

theorem valid_setItem {s : PySt} (h : s.Valid) (k : Str) (v : PyVal) (hv : ∀ i, v = .proxy i → IsMacro s i) :
    (s.setItem k v).2.Valid := by
  rcases setItem_cases s k v with ⟨i, hi, e⟩ | ⟨t, m, -, -, e⟩ | ⟨-, -, -, e⟩ | ⟨t, -, -, e⟩
  · rw [e]; exact valid_store h k (hv i hi).lt true
  · rw [e]; exact valid_store (valid_alloc h (.user m)) k (by simp [PySt.alloc]) true
  · rw [e]; exact h
  · rw [e]; exact h

theorem valid_delItem {s : PySt} (h : s.Valid) (k : Str) : (s.delItem k).2.Valid := by
  unfold PySt.delItem
  split
  · exact h
  · refine ⟨(List.Sublist.map _ List.filter_sublist).nodup h.keys, ?_⟩
    intro p hp
    have := h.ptrs p (List.mem_filter.1 hp).1
    simpa [PySt.free_length] using this

theorem valid_clear (s : PySt) : s.clear.Valid := ⟨by simp [PySt.clear], by simp [PySt.clear]⟩

theorem valid_steps {s : PySt} (h : s.Valid) (l : List RunStep) : (l.foldl PySt.step s).Valid := by
  induction l generalizing s with
  | nil => exact h
  | cons r l ih => exact ih (PySt.step_contents s h r false).2.1

theorem Reachable.valid {s : PySt} (h : Reachable s) : s.Valid := by
  induction h with
  | empty => exact ⟨by simp [PySt.empty], by simp [PySt.empty]⟩
  | @step s op _ hw ih =>
    cases op with
    | new n p b =>
      simp only [PySt.exec]
      rcases PySt.proxyNew_cases s n p b with ⟨m, e⟩ | ⟨x, e⟩ | e <;> rw [e]
      · exact valid_alloc ih _
      · exact ih
      · exact ih
    | set k v => exact valid_setItem ih k v (by rintro i rfl; exact hw)
    | del k => exact valid_delItem ih k
    | get k d => simp only [PySt.exec, PySt.get]; split; exacts [ih, valid_touch ih _]
    | getItem k => simp only [PySt.exec, PySt.getItem]; split; exacts [ih, valid_touch ih _]
    | setDefault k v =>
      have := valid_setItem ih k v (by rintro i rfl; exact hw)
      simp only [PySt.exec, PySt.setDefault]
      split
      · split <;> rename_i e <;> rw [e] at this <;> exact this
      · exact valid_touch ih _
    | pop k d =>
      simp only [PySt.exec, PySt.pop]
      split
      · split <;> exact ih
      · exact valid_touch ih _
    | clear => exact valid_clear s
    | access i => exact valid_touch ih i
    | setPersistent i b => exact valid_setFlag ih i b
    | run l => exact valid_steps ih l

/-! ## C45 -/

theorem seen_eq (s : PySt) (k : Str) : seen s k = (s.find k).map fun i => (s.value i).1 := by
  unfold seen PySt.getItem
  cases s.find k <;> rfl

theorem contains_iff_seen (s : PySt) (k : Str) : s.contains k = (seen s k).isSome := by
  rw [seen_eq, PySt.contains]; cases s.find k <;> rfl

theorem value_setFlag (s : PySt) (i j : Nat) (b : Bool) (db : List (Str × Nat)) :
    (PySt.value { s.setFlag i b with db := db } j).1 = (s.value j).1 := by
  simp only [PySt.value, PySt.setFlag, List.getElem?_modify]
  by_cases h : i = j
  · subst h
    rcases s.heap[i]? with _ | ⟨⟨⟩, p, f⟩ <;> simp
  · simp [h]

theorem value_alloc (s : PySt) (o : MacroObj) {j : Nat} (h : j < s.heap.length) : ((s.alloc o).2.value j).1 = (s.value j).1 := by
  simp [PySt.value, PySt.alloc, List.getElem?_append_left h]

theorem value_macro {s : PySt} {i : Nat} (h : IsMacro s i) : (s.value i).1 = .proxy i := by
  obtain ⟨⟨o, p, f⟩, m, h, h2⟩ := h
  simp only at h2
  subst h2
  simp [PySt.value, h]

theorem seen_store (s : PySt) (hv : s.Valid) (k : Str) (i : Nat) (k' : Str) :
    seen { s.setFlag i true with db := PySt.assign s.db k i } k' = if k' = k then some (s.value i).1 else seen s k' := by
  rw [seen_eq, PySt.find_assign s hv.keys]
  split
  · rw [Option.map_some, value_setFlag]
  · rw [seen_eq]
    cases s.find k' with
    | none => rfl
    | some j => simp only [Option.map_some]; rw [value_setFlag]

theorem macroOf_setFlag (s : PySt) (i : Nat) (b : Bool) (db : List (Str × Nat)) (v : PyVal) :
    macroOf { s.setFlag i b with db := db } v = macroOf s v := by
  cases v with
  | proxy j =>
    simp only [macroOf, PySt.setFlag, List.getElem?_modify]
    by_cases h : i = j
    · subst h
      rcases s.heap[i]? with _ | ⟨⟨⟩, p, f⟩ <;> simp
    · simp [h]
  | _ => rfl

/-- **C45, the laws that hold**, in every reachable state.

* `in` and `[]` agree; `get` returns `db[k]` or the default; `[]` raises `KeyError` exactly for absent keys.
* `len` is the number of keys.
* A successful `db[k] = v` stores: `db[k]` is afterwards the given macro object, or for a text a new macro with this text; all
  other keys are as before. A refused value changes nothing.
* `del db[k]` removes exactly `k`, or raises `KeyError` for an absent key and changes nothing.
* `clear` removes all keys.

Missing: `pop` and the result of `setdefault`, for which the law is false (`C45_violated_pop`, `C45_violated_setdefault`). -/
theorem C45_dict_laws_partial (s : PySt) (hs : Reachable s) (k : Str) :
    (s.contains k = (seen s k).isSome ∧ ((s.getItem k).1 = .raise .keyError ↔ s.contains k = false)) ∧
    (∀ d, (s.get k d).1 = .ok ((seen s k).getD d)) ∧
    (∀ ks : List Str, ks.Nodup → (∀ k, k ∈ ks ↔ s.contains k = true) → s.len = ks.length) ∧
    (∀ v s', s.setItem k v = (.ok (), s') → (∀ i, v = .proxy i → IsMacro s i) →
      (∃ w m, seen s' k = some w ∧ macroOf s' w = some m ∧
        ((v = w ∧ macroOf s v = some m) ∨
         (∃ t, (v = .str t ∨ v = .none ∧ t = []) ∧ MacroDef.new k false [] t = .ok m))) ∧
      ∀ k', k' ≠ k → seen s' k' = seen s k') ∧
    (∀ v e, (s.setItem k v).1 = .raise e → (s.setItem k v).2 = s) ∧
    ((s.delItem k).1 = (if s.contains k then .ok () else .raise .keyError)) ∧
    (s.contains k = false → (s.delItem k).2 = s) ∧
    (∀ k', seen (s.delItem k).2 k' = if k' = k then none else seen s k') ∧
    (s.clear.len = 0 ∧ s.clear.contains k = false) := by
  have hv := hs.valid
  refine ⟨⟨contains_iff_seen s k, ?_⟩, ?_, ?_, ?_, ?_, ?_, ?_, ?_, ?_⟩
  · unfold PySt.getItem PySt.contains
    cases s.find k <;> simp
  · intro d
    rw [seen_eq]
    unfold PySt.get
    cases s.find k <;> rfl
  · intro ks hnd hks
    have hp : (s.db.map Prod.fst).Perm ks := by
      rw [List.perm_ext_iff_of_nodup hv.keys hnd]
      intro k
      rw [hks k]
      simp only [PySt.contains, List.mem_map, Prod.exists, exists_and_right, exists_eq_right]
      constructor
      · rintro ⟨i, hi⟩; rw [PySt.find_of_mem hv.keys hi]; rfl
      · intro h
        obtain ⟨i, hi⟩ := Option.isSome_iff_exists.1 h
        exact ⟨i, PySt.find_some_mem hi⟩
    have := hp.length_eq
    simpa [PySt.len] using this
  · intro v s' he hm
    rcases setItem_cases s k v with ⟨i, rfl, e⟩ | ⟨t, m, ht, hnew, e⟩ | ⟨-, -, -, e⟩ | ⟨t, -, -, e⟩
    · rw [e] at he
      obtain rfl := (Prod.mk.inj he).2
      obtain ⟨⟨o, p, f⟩, m, h1, h2⟩ := hm i rfl
      simp only at h2
      subst h2
      refine ⟨⟨.proxy i, m, ?_, ?_, .inl ⟨rfl, ?_⟩⟩, ?_⟩
      · rw [seen_store s hv, if_pos rfl, value_macro (hm i rfl)]
      · rw [macroOf_setFlag]; simp [macroOf, h1]
      · simp [macroOf, h1]
      · intro k' hk'
        rw [seen_store s hv, if_neg hk']
    · rw [e] at he
      obtain rfl := (Prod.mk.inj he).2
      have hv' := valid_alloc hv (.user m)
      have hmac : IsMacro (s.alloc (.user m)).2 s.heap.length := ⟨⟨.user m, false, false⟩, m, by simp [PySt.alloc], rfl⟩
      refine ⟨⟨.proxy s.heap.length, m, ?_, ?_, .inr ⟨t, ht, hnew⟩⟩, ?_⟩
      · have := seen_store (s.alloc (.user m)).2 hv' k s.heap.length k
        rw [if_pos rfl, value_macro hmac] at this
        exact this
      · have := macroOf_setFlag (s.alloc (.user m)).2 s.heap.length true (PySt.assign s.db k s.heap.length) (.proxy s.heap.length)
        refine this.trans ?_
        simp [macroOf, PySt.alloc]
      · intro k' hk'
        have := seen_store (s.alloc (.user m)).2 hv' k s.heap.length k'
        rw [if_neg hk'] at this
        refine this.trans ?_
        rw [seen_eq, seen_eq]
        change Option.map _ (s.find k') = _
        cases hf : s.find k' with
        | none => rfl
        | some j =>
          simp only [Option.map_some]
          rw [value_alloc s _ (hv.ptrs _ (PySt.find_some_mem hf))]
    · rw [e] at he; simp at he
    · rw [e] at he; simp at he
  · intro v x he
    rcases setItem_cases s k v with ⟨i, rfl, e⟩ | ⟨t, m, ht, hnew, e⟩ | ⟨-, -, -, e⟩ | ⟨t, -, -, e⟩ <;> rw [e] at he ⊢ <;> simp at he
  · unfold PySt.delItem PySt.contains
    cases s.find k <;> rfl
  · unfold PySt.delItem PySt.contains
    cases s.find k <;> simp
  · intro k'
    unfold PySt.delItem
    cases hf : s.find k with
    | none =>
      simp only
      split
      · rename_i h; subst h; rw [seen_eq, hf]; rfl
      · rfl
    | some i =>
      simp only
      rw [seen_eq, PySt.find_filter s hv.keys]
      split
      · rfl
      · rw [seen_eq]
        cases hf' : s.find k' with
        | none => rfl
        | some j =>
          simp only [Option.map_some, PySt.value]
          have := PySt.free_get s i j
          rcases h1 : (s.free i).heap[j]? with _ | ⟨o1, p1, f1⟩ <;> rcases h2 : s.heap[j]? with _ | ⟨o2, p2, f2⟩ <;>
            rw [h1, h2] at this <;> simp at this ⊢
          obtain ⟨rfl, -⟩ := this
          cases o1 <;> rfl
  · refine ⟨rfl, ?_⟩
    simp [PySt.contains, PySt.find, PySt.clear]

/-- a reachable state with two macros, one set from Python, one defined in a source -/
example : ∃ s, Reachable s ∧ s.contains (c! "A") = true ∧ s.contains (c! "B") = true ∧
    (s.setItem (c! "A") (.str (c! "2"))).1 = .ok () ∧ s.len = 2 :=
  ⟨_, .step (.run [.undefineall, .insert (c! "B") (.user ⟨c! "B", false, [], []⟩)])
    (.step (.set (c! "A") (.str (c! "1"))) .empty trivial) trivial, by decide, by decide, by decide, by decide⟩

/-- **C45, update**: after a successful `update` the keys are the old ones and the given ones, keys that are not given are
as before, and a given text is the text of the macro under its key. -/
theorem C45_update_partial (l : List (Str × PyVal)) (hl : (l.map Prod.fst).Nodup) (s : PySt) (hs : Reachable s) (s' : PySt)
    (h : s.update l = (.ok (), s')) (hm : ∀ p ∈ l, ∀ i, p.2 = .proxy i → IsMacro s i) :
    (∀ k, s'.contains k = true ↔ s.contains k = true ∨ k ∈ l.map Prod.fst) ∧
    (∀ k, k ∉ l.map Prod.fst → seen s' k = seen s k) ∧
    (∀ k t, (k, .str t) ∈ l → ∃ w m, seen s' k = some w ∧ macroOf s' w = some m ∧ MacroDef.new k false [] t = .ok m) ∧
    (∀ k i, (k, .proxy i) ∈ l → seen s' k = some (.proxy i)) ∧
    (∀ v m, macroOf s v = some m → macroOf s' v = some m) := by
  induction l generalizing s with
  | nil =>
    obtain rfl : s = s' := by simpa [PySt.update] using h
    simp
  | cons p r ih =>
    obtain ⟨k, v⟩ := p
    simp only [PySt.update] at h
    rcases he : s.setItem k v with ⟨_ | e | _, s1⟩ <;> rw [he] at h <;> simp at h
    simp only [List.map_cons, List.nodup_cons] at hl
    have hmv : ∀ i, v = .proxy i → IsMacro s i := hm (k, v) (by simp)
    have hs1 : Reachable s1 := by
      have := Reachable.step (.set k v) hs (by
        cases v with
        | proxy i => exact hmv i rfl
        | _ => trivial)
      simpa [PySt.exec, he] using this
    -- macros keep their definition
    have hkeep : ∀ v m, macroOf s v = some m → macroOf s1 v = some m := by
      intro w m hw
      rcases setItem_cases s k v with ⟨i, rfl, e⟩ | ⟨t, m', ht, hnew, e⟩ | ⟨-, -, -, e⟩ | ⟨t, -, -, e⟩ <;> rw [e] at he
      · obtain rfl := (Prod.mk.inj he).2
        rw [macroOf_setFlag]; exact hw
      · obtain rfl := (Prod.mk.inj he).2
        refine (macroOf_setFlag (s.alloc (.user m')).2 s.heap.length true _ w).trans ?_
        cases w with
        | proxy j =>
          have hj : j < s.heap.length := by
            by_contra hc
            simp [macroOf, List.getElem?_eq_none (by omega : s.heap.length ≤ j)] at hw
          simpa [macroOf, PySt.alloc, List.getElem?_append_left hj] using hw
        | _ => simp [macroOf] at hw
      · simp at he
      · simp at he
    have hmk : ∀ p ∈ r, ∀ i, p.2 = .proxy i → IsMacro s1 i := by
      intro p hp i hi
      obtain ⟨⟨o, a, b⟩, m, h1, h2⟩ := hm p (by simp [hp]) i hi
      simp only at h2; subst h2
      have := hkeep (.proxy i) m (by simp [macroOf, h1])
      simp only [macroOf] at this
      split at this
      · rename_i x m' _ _ hx
        exact ⟨_, m', hx, rfl⟩
      · simp at this
    obtain ⟨i1, i2, i3, i4, i5⟩ := ih hl.2 s1 hs1 h hmk
    obtain ⟨⟨w, m, hw, hwm, hww⟩, hother⟩ := (C45_dict_laws_partial s hs k).2.2.2.1 v s1 he hmv
    have hkk : seen s' k = some w := by rw [i2 k hl.1]; exact hw
    refine ⟨?_, ?_, ?_, ?_, ?_⟩
    · intro k'
      rw [i1 k', contains_iff_seen, contains_iff_seen]
      simp only [List.map_cons, List.mem_cons]
      by_cases hk : k' = k
      · subst hk; simp [hw]
      · rw [hother k' hk]; simp [hk]
    · intro k' hk'
      simp only [List.map_cons, List.mem_cons, not_or] at hk'
      rw [i2 k' hk'.2, hother k' hk'.1]
    · intro k' t ht
      rcases List.mem_cons.1 ht with e | ht
      · obtain ⟨rfl, rfl⟩ := Prod.mk.inj e
        rcases hww with ⟨rfl, hb⟩ | ⟨t', ht', hnew⟩
        · simp [macroOf] at hb
        · simp at ht'
          subst ht'
          exact ⟨w, m, hkk, i5 w m hwm, hnew⟩
      · exact i3 k' t ht
    · intro k' i hi
      rcases List.mem_cons.1 hi with e | hi
      · obtain ⟨rfl, rfl⟩ := Prod.mk.inj e
        rcases hww with ⟨rfl, hb⟩ | ⟨t', ht', hnew⟩
        · exact hkk
        · simp at ht'
      · exact i4 k' i hi
    · intro x y hx
      exact i5 x y (hkeep x y hx)

example : ∃ s', PySt.empty.update [(c! "A", .str (c! "1")), (c! "B", .none)] = (.ok (), s') := ⟨_, rfl⟩

/-- **C45, violated**: `pop` of a present key never removes it. -/
theorem C45_violated_pop (s : PySt) (k : Str) (d : Option PyVal) (h : s.contains k = true) :
    (s.pop k d).2.contains k = true ∧ (s.pop k d).2.len = s.len := by
  obtain ⟨i, hi⟩ := Option.isSome_iff_exists.1 h
  have hdb : (s.pop k d).2.db = s.db := by simp [PySt.pop, hi, PySt.value, PySt.touch_db]
  refine ⟨?_, by simp [PySt.len, hdb]⟩
  simpa [PySt.contains, PySt.find, hdb] using h

example : ∃ s, Reachable s ∧ s.contains (c! "A") = true :=
  ⟨_, .step (.set (c! "A") (.str (c! "1"))) .empty trivial, by decide⟩

/-- **C45, violated**: `setdefault(k, text)` for an absent key returns the text, which is not what `db[k]` is afterwards. -/
theorem C45_violated_setdefault (s : PySt) (hs : Reachable s) (k t : Str) (h : s.contains k = false)
    (ht : endsInString false none t = false) :
    (s.setDefault k (.str t)).1 = .ok (.str t) ∧ seen (s.setDefault k (.str t)).2 k ≠ some (.str t) ∧
    (s.setDefault k (.str t)).2.contains k = true := by
  have hf : s.find k = none := by simpa [PySt.contains] using h
  have hnew : ∃ m, MacroDef.new k false [] t = .ok m := by
    obtain ⟨fr, hfr, -⟩ := (parseBody_spec k [] t ⟨by simp, by simp⟩).2 ht
    exact ⟨_, by simp [MacroDef.new, hfr, bind, Except.bind, pure, Except.pure]; rfl⟩
  obtain ⟨m, hm⟩ := hnew
  rcases setItem_cases s k (.str t) with ⟨i, hi, e⟩ | ⟨t', m', ht', hnew', e⟩ | ⟨h1, -, -, e⟩ | ⟨t', ht', ⟨x, hx⟩, e⟩
  · simp at hi
  · obtain ⟨⟨w, m2, hw, hwm, hww⟩, -⟩ := (C45_dict_laws_partial s hs k).2.2.2.1 _ _ e (by simp)
    simp only [PySt.setDefault, hf, e]
    refine ⟨trivial, ?_, ?_⟩
    · intro hc
      rw [hw] at hc
      obtain rfl := Option.some.inj hc
      simp [macroOf] at hwm
    · rw [contains_iff_seen, hw]; rfl
  · exact absurd rfl (h1 t)
  · simp at ht'; subst ht'; rw [hm] at hx; simp at hx

example : PySt.empty.contains (c! "A") = false ∧ endsInString false none (c! "x+1") = false := by decide

/-- **C45** The mapping seen from Python is what a run starts with: each macro that is persistent (all macros set from Python
are, unless the flag was cleared) is defined in the run with the same definition. -/
theorem C45_seen_by_run (s : PySt) (hs : Reachable s) (env : Env) (incdirs : List Str) (k : Str) (i : Nat) (m : MacroDef) (f : Bool)
    (hk : seen s k = some (.proxy i)) (ho : s.heap[i]? = some ⟨.user m, true, f⟩) :
    (initState env s.contents incdirs).db.find k = some ⟨.user m, true⟩ := by
  have hv := hs.valid
  have hfind : s.find k = some i := by
    rw [seen_eq] at hk
    cases hf : s.find k with
    | none => rw [hf] at hk; simp at hk
    | some j =>
      rw [hf] at hk
      simp only [Option.map_some, Option.some.injEq, PySt.value] at hk
      split at hk
      · obtain rfl := PyVal.proxy.inj hk; rfl
      · simp at hk
  have hc : s.contents.find k = some ⟨.user m, true⟩ := by
    rw [PySt.contents_find s hv, hfind]; simp [ho]
  have hu : s.contents.Uniq := by
    unfold MacroDB.Uniq PySt.contents
    have hsub : ∀ l : List (Str × Nat), List.Sublist ((l.filterMap fun p => (s.heap[p.2]?).map fun o =>
        ((p.1, ⟨o.obj, o.persistent⟩) : Str × DbItem)).map Prod.fst) (l.map Prod.fst) := by
      intro l
      induction l with
      | nil => simp
      | cons p r ih =>
        rw [List.filterMap_cons]
        cases s.heap[p.2]? with
        | none => exact ih.cons _
        | some o => simpa using ih
    exact (hsub s.db).nodup hv.keys
  have hmem : (k, (⟨.user m, true⟩ : DbItem)) ∈ s.contents.deleteNonPersistent := by
    simp only [MacroDB.deleteNonPersistent, List.mem_filter]
    exact ⟨MacroDB.find_some_mem hc, trivial⟩
  have hdn : s.contents.deleteNonPersistent.find k = some ⟨.user m, true⟩ := (hu.filter _).find_of_mem hmem
  have hins : ∀ (db : MacroDB) k' v, db.find k = some ⟨.user m, true⟩ → (db.insert k' v).find k = some ⟨.user m, true⟩ := by
    intro db k' v hdb
    unfold MacroDB.insert
    split
    · exact hdb
    · simp only [MacroDB.find, List.find?_append, Option.map_eq_some_iff] at hdb ⊢
      obtain ⟨p, hp, he⟩ := hdb
      exact ⟨p, by rw [hp]; rfl, he⟩
  simp only [initState, MacroDB.addDefaults]
  split
  · exact hins _ _ _ (hins _ _ _ hdn)
  · exact hdn

/-- **C45** After a run (successful or not) the mapping seen from Python is the database the preprocessor ended with: every run
is a sequence of accesses, and their effect on the heap and on the database of the preprocessor model is the same. -/
theorem C45_run_refines (s : PySt) (hs : Reachable s) (j : Job) :
    ∃ l, Reachable (s.exec (.run l)) ∧ (s.exec (.run l)).contents = (j.exec s.contents).2.db := by
  have hfold : ∀ (l : List RunStep) (s : PySt) (b : Bool), s.Valid →
      (l.foldl PySt.step s).contents = (applySteps l (s.contents, b)).1 := by
    intro l
    induction l with
    | nil => intros; rfl
    | cons r l ih =>
      intro s b hv
      obtain ⟨h1, h2, -⟩ := PySt.step_contents s hv r b
      rw [List.foldl_cons, ih (s.step r) (r.onDb (s.contents, b)).2 h2, h1]
      rfl
  have : ∃ l, applySteps l (s.contents, false) = ((j.exec s.contents).2.db, (j.exec s.contents).2.ub) := by
    cases j with
    | str env incdirs text enc => exact trace_ppStr env s.contents incdirs text enc
    | file env incdirs path enc => exact trace_pp env s.contents incdirs path enc
  obtain ⟨l, hl⟩ := this
  refine ⟨l, .step (.run l) hs trivial, ?_⟩
  rw [PySt.exec, hfold l s false hs.valid, hl]

/-! ## C46 -/

/-- `get_body` is the concatenation of the fragments with the names of the parameters, except that the first one is empty. -/
theorem getBody_join (m : MacroDef) (args : List Str) (h : ∀ i, 0 < i → args[i]? = (m.params[i]?).map Param.name)
    (h0 : m.params ≠ [] → args[0]? = some []) (hb : ∀ f ∈ m.frags, f.bounded m.params.length) (out : Str)
    (hj : joinFrags args m.frags = .ok out) : m.getBody = some out := by
  unfold MacroDef.getBody
  generalize m.frags = fr at hb hj
  induction fr generalizing out with
  | nil => simp [joinFrags] at hj; subst hj; rfl
  | cons f r ih =>
    have hr : ∀ f ∈ r, f.bounded m.params.length := fun x hx => hb x (by simp [hx])
    have hf := hb f (by simp)
    cases f with
    | lit t =>
      simp only [joinFrags, bind, Except.bind, pure, Except.pure] at hj
      split at hj
      · simp at hj
      · rename_i o ho
        obtain rfl := Except.ok.inj hj
        have := ih o hr ho
        rw [Option.map_eq_some_iff] at this ⊢
        obtain ⟨l, hl, rfl⟩ := this
        exact ⟨t :: l, by simp [List.mapM_cons, bodyFrag, hl], by simp⟩
    | arg i =>
      simp only [joinFrags] at hj
      split at hj
      · simp at hj
      · rename_i a ha
        simp only [bind, Except.bind, pure, Except.pure] at hj
        split at hj
        · simp at hj
        · rename_i o ho
          obtain rfl := Except.ok.inj hj
          have := ih o hr ho
          rw [Option.map_eq_some_iff] at this ⊢
          obtain ⟨l, hl, rfl⟩ := this
          refine ⟨a :: l, ?_, by simp⟩
          have hba : bodyFrag m (.arg i) = some a := by
            unfold bodyFrag
            by_cases hi : 0 < i
            · simp [hi, ← h i hi, ha]
            · have : i = 0 := by omega
              subst this
              have hne : m.params ≠ [] := by
                intro hc
                simp [Frag.bounded, hc] at hf
              rw [h0 hne] at ha
              simp [← ha]
          simp [List.mapM_cons, hba, hl]

/-- **C46, violated in general; what the code does**: `get_body` returns the macro text with every free-standing occurrence
of the *first* parameter removed. -/
theorem C46_violated_general (name : Str) (p : Param) (ps : List Param) (body : Str) (m : MacroDef) (hf : FormalsOk (p :: ps))
    (h : MacroDef.new name true (p :: ps) body = .ok m) :
    m.getBody = some (expand stopCode (((p :: ps).map Param.name).zip ([] :: ps.map Param.name)) body) := by
  simp only [MacroDef.new, bind, Except.bind, pure, Except.pure] at h
  split at h
  · simp at h
  · rename_i fr hfr
    obtain rfl := Except.ok.inj h
    have hb : endsInString false none body = false := by
      cases he : endsInString false none body with
      | false => rfl
      | true =>
        obtain ⟨e, hx⟩ := (parseBody_spec name (p :: ps) body hf).1 he
        rw [hx] at hfr; simp at hfr
    obtain ⟨fr', hfr', hj⟩ := (parseBody_spec name (p :: ps) body hf).2 hb
    rw [hfr] at hfr'
    obtain rfl := Except.ok.inj hfr'
    rcases parseBody_total name (p :: ps) body with ⟨e, he⟩ | ⟨fr'', he, hbound⟩
    · rw [hfr] at he; simp at he
    · rw [hfr] at he
      obtain rfl := Except.ok.inj he
      refine getBody_join _ ([] :: ps.map Param.name) ?_ (fun _ => rfl) hbound _ (hj _ (by simp))
      intro i hi
      obtain ⟨j, rfl⟩ : ∃ j, i = j + 1 := ⟨i - 1, by omega⟩
      simp

/-- the text `a+1` of a macro with the parameter `a` is returned as `+1` -/
theorem C46_violated_witness : ∃ m, MacroDef.new (c! "M") true [pA] (c! "a+1") = .ok m ∧ m.getBody = some (c! "+1") :=
  ⟨⟨c! "M", true, [pA], [.arg 0, .lit (c! "+1")]⟩, by decide, by decide⟩

theorem getBody_noParams {name : Str} {hp : Bool} {body : Str} {m : MacroDef} (h : MacroDef.new name hp [] body = .ok m) :
    m.getBody = some body := by
  simp only [MacroDef.new, bind, Except.bind, pure, Except.pure] at h
  split at h
  · simp at h
  · rename_i fr hfr
    obtain rfl := Except.ok.inj h
    unfold parseBody at hfr
    simp only [bind, Except.bind, pure, Except.pure] at hfr
    split at hfr
    · simp at hfr
    · simp only [or_true, if_true] at hfr
      split at hfr
      · rename_i hbe
        obtain rfl := Except.ok.inj hfr
        subst hbe; rfl
      · obtain rfl := Except.ok.inj hfr
        simp [MacroDef.getBody, bodyFrag]

/-- **C46, the part that holds for the text**: macros without parameters, and macros in whose text the first parameter does
not occur. Missing: texts with the first parameter, for which the claim is false. -/
theorem C46_get_body_partial (name : Str) (hp : Bool) (params : List Param) (body : Str) (m : MacroDef)
    (h : MacroDef.new name hp params body = .ok m)
    (hc : params = [] ∨ FormalsOk params ∧ hp = true ∧ ∀ p, params.head? = some p → ¬ p.name <:+: body) :
    m.getBody = some body := by
  rcases hc with rfl | ⟨hf, rfl, hno⟩
  · exact getBody_noParams h
  · cases params with
    | nil =>
      exact getBody_noParams h
    | cons p ps =>
      rw [C46_violated_general name p ps body m hf h]
      have hno := hno p rfl
      congr 1
      -- the first parameter is never found, the others are replaced by themselves
      have hid : expand stopCode ((ps.map Param.name).zip (ps.map Param.name)) body = body := by
        rw [expand, expandFrom_id _ _ _ body.length _ _ _ rfl]
        intro q hq
        obtain ⟨a, b⟩ := q
        have h1 := List.of_mem_zip hq
        have hab : ∀ (l : List Str), (a, b) ∈ l.zip l → a = b := by
          intro l
          induction l with
          | nil => simp
          | cons x l ih =>
            simp only [List.zip_cons_cons, List.mem_cons, Prod.mk.injEq]
            rintro (⟨rfl, rfl⟩ | h)
            · rfl
            · exact ih h
        obtain ⟨q, hq1, hq2⟩ := List.mem_map.1 h1.1
        exact ⟨hab _ hq, by simp only; rw [← hq2]; exact (hf.1 q (by simp [hq1])).1⟩
      have key : ∀ (s : Str) (inS : Bool) (q : Option Char) (n : Nat), (∃ u, body = u ++ s) →
          expandFrom stopCode (((p :: ps).map Param.name).zip ([] :: ps.map Param.name)) inS q n s =
          expandFrom stopCode ((ps.map Param.name).zip (ps.map Param.name)) inS q n s := by
        intro s
        induction s with
        | nil => intro inS q n _; cases n <;> simp [expandFrom]
        | cons c r ih =>
          rintro inS q n ⟨u, hu⟩
          have hu' : ∃ u, body = u ++ r := ⟨u ++ [c], by simp [hu]⟩
          cases n with
          | succ n => rw [expandFrom, expandFrom, ih _ _ _ hu']
          | zero =>
            rw [expandFrom, expandFrom]
            have hnone : formalHere stopCode inS q (c :: r) p.name = false := by
              unfold formalHere
              have : p.name.isPrefixOf (c :: r) = false := by
                rw [Bool.eq_false_iff]
                intro hpre
                rw [List.isPrefixOf_iff_prefix] at hpre
                obtain ⟨v, hv⟩ := hpre
                exact hno ⟨u, v, by rw [List.append_assoc, hv, hu]⟩
              simp [this]
            have hfind : (((p :: ps).map Param.name).zip ([] :: ps.map Param.name)).find?
                (fun x => formalHere stopCode inS q (c :: r) x.1) =
                ((ps.map Param.name).zip (ps.map Param.name)).find? (fun x => formalHere stopCode inS q (c :: r) x.1) := by
              simp only [List.map_cons, List.zip_cons_cons, List.find?_cons, hnone]
            rw [hfind]
            cases ((ps.map Param.name).zip (ps.map Param.name)).find? (fun x => formalHere stopCode inS q (c :: r) x.1) with
            | none => simp only; rw [ih _ _ _ hu']
            | some x => simp only; rw [ih _ _ _ hu']
      rw [expand, key body false none 0 ⟨[], rfl⟩]
      exact hid

example : (∃ m, MacroDef.new (c! "M") true [pA, pB] (c! "b + 1") = .ok m) ∧ FormalsOk [pA, pB] ∧
    ∀ p, [pA, pB].head? = some p → ¬ p.name <:+: (c! "b + 1") := by
  refine ⟨⟨⟨c! "M", true, [pA, pB], [.arg 1, .lit (c! " + 1")]⟩, by decide⟩, ⟨?_, by decide⟩, ?_⟩
  · intro p hp
    simp only [List.mem_cons, List.not_mem_nil, or_false] at hp
    rcases hp with rfl | rfl <;> exact ⟨by decide, by decide⟩
  · intro p hp
    obtain rfl := Option.some.inj hp
    decide

/-- **C46** `get_params` returns the parameters the macro was defined with, with their default values (`None` for a macro
without a parameter list). -/
theorem C46_get_params (name : Str) (ps : List Param) (body : Str) (m m' : MacroDef)
    (h : MacroDef.new name true ps body = .ok m) (h' : MacroDef.new name false [] body = .ok m') :
    (∃ l, m.getParams = some l ∧ l.length = ps.length ∧
      ∀ (i : Nat) (p : Param), ps[i]? = some p → l[i]? = some (if p.hasDef then PyParam.tup p.name p.defVal else PyParam.plain p.name)) ∧
    m'.getParams = none := by
  simp only [MacroDef.new, bind, Except.bind, pure, Except.pure] at h h'
  split at h
  · simp at h
  · split at h'
    · simp at h'
    · obtain rfl := Except.ok.inj h
      obtain rfl := Except.ok.inj h'
      refine ⟨⟨_, rfl, by simp, ?_⟩, rfl⟩
      intro i p hp
      simp [hp]

example : (∃ m, MacroDef.new (c! "M") true [pA, pB] (c! "b + a") = .ok m) ∧ (∃ m, MacroDef.new (c! "M") false [] (c! "b + a") = .ok m) :=
  ⟨⟨_, by rfl⟩, ⟨_, by rfl⟩⟩

/-- **C46, violated**: parameters without default value given to `MacroDefVerilog.new` get lost. -/
theorem C46_violated_new (s : PySt) (name body : Str) (n : Str) (i : Nat) (s' : PySt)
    (h : proxyNew s name (some [.plain n]) (.str body) = (.ok i, s')) :
    ∃ m, macroOf s' (.proxy i) = some m ∧ m.getParams = some [] := by
  simp only [proxyNew, Option.isSome_some, Option.getD_some, cppParams] at h
  rcases new_cases name true [] body with ⟨m, hm⟩ | ⟨e, he⟩
  · rw [hm] at h
    obtain ⟨h1, rfl⟩ := Prod.mk.inj h
    have h1 := PyOut.ok.inj h1
    subst h1
    refine ⟨m, by simp [macroOf, PySt.alloc], ?_⟩
    simp only [MacroDef.new, bind, Except.bind, pure, Except.pure] at hm
    split at hm
    · simp at hm
    · obtain rfl := Except.ok.inj hm; rfl
  · rw [he] at h; simp at h

example : ∃ i s', proxyNew .empty (c! "M") (some [.plain (c! "a")]) (.str (c! "a+1")) = (.ok i, s') := ⟨_, _, rfl⟩

/-- **C46, the part that holds for `new`**: if all parameters have default values, `get_params` returns the given list. Missing:
parameters without default. -/
theorem C46_new_partial (s : PySt) (name body : Str) (ps : List (Str × Str)) (i : Nat) (s' : PySt)
    (h : proxyNew s name (some (ps.map fun p => .tup p.1 p.2)) (.str body) = (.ok i, s')) :
    ∃ m, macroOf s' (.proxy i) = some m ∧ m.name = name ∧ m.getParams = some (ps.map fun p => .tup p.1 p.2) := by
  have hc : ∀ ps : List (Str × Str), cppParams (ps.map fun p => .tup p.1 p.2) = ps.map fun p => ⟨p.1, true, p.2⟩ := by
    intro ps
    induction ps with
    | nil => rfl
    | cons p r ih => simp [cppParams, ih]
  simp only [proxyNew, Option.isSome_some, Option.getD_some, hc] at h
  rcases new_cases name true (ps.map fun p => ⟨p.1, true, p.2⟩) body with ⟨m, hm⟩ | ⟨e, he⟩
  · rw [hm] at h
    obtain ⟨h1, rfl⟩ := Prod.mk.inj h
    have h1 := PyOut.ok.inj h1
    subst h1
    refine ⟨m, by simp [macroOf, PySt.alloc], ?_⟩
    simp only [MacroDef.new, bind, Except.bind, pure, Except.pure] at hm
    split at hm
    · simp at hm
    · obtain rfl := Except.ok.inj hm
      exact ⟨rfl, by simp [MacroDef.getParams]⟩
  · rw [he] at h; simp at h

example : ∃ i s', proxyNew .empty (c! "M") (some [.tup (c! "a") (c! "1")]) (.str (c! "a+1")) = (.ok i, s') := ⟨_, _, rfl⟩

/-! ## C47 -/

/-- The discipline that keeps the objects safe: a wrapper is stored and used only while its object is alive, an object is not
stored under two keys, and runs do not `` `undef `` a macro that is defined in the sources. -/
def PyOp.Disciplined (s : PySt) : PyOp → Prop
  | .set k (.proxy i) => s.Live i ∧ ∀ k', s.find k' = some i → k' = k
  | .setDefault k (.proxy i) => s.Live i ∧ ∀ k', s.find k' = some i → k' = k
  | .access i => s.Live i
  | .setPersistent i _ => s.Live i
  | .run l => ∀ pre k post, l = pre ++ .undef k :: post →
      ∀ item, (pre.foldl PySt.step s).contents.find k = some item → item.persistent = true
  | _ => True

/-- A history in which every operation follows the discipline. -/
inductive DisciplinedHist : PySt → List PyOp → Prop
  | nil (s : PySt) : DisciplinedHist s []
  | cons {s : PySt} {op : PyOp} {r : List PyOp} : op.Disciplined s → DisciplinedHist (s.exec op) r → DisciplinedHist s (op :: r)

theorem good_exec {s : PySt} (h : s.Good) (op : PyOp) (hd : op.Disciplined s) : (s.exec op).Good := by
  have hset : ∀ k v, (∀ i, v = .proxy i → s.Live i ∧ ∀ k', s.find k' = some i → k' = k) → (s.setItem k v).2.Good := by
    intro k v hv
    refine h.setItem fun i hi => ⟨(hv i hi).1, ?_⟩
    intro p hp e
    exact (hv i hi).2 p.1 (PySt.find_of_mem h.keys (by rw [← e]; exact hp))
  have hval : ∀ k i, s.find k = some i → (s.value i).2.Good := by
    intro k i hi
    rw [PySt.value_state (h.live _ (PySt.find_some_mem hi))]
    exact h
  cases op with
  | new n p b =>
    simp only [PySt.exec]
    rcases PySt.proxyNew_cases s n p b with ⟨m, e⟩ | ⟨x, e⟩ | e <;> rw [e]
    · exact h.alloc _
    · exact h
    · exact h
  | set k v => exact hset k v (by rintro i rfl; exact hd)
  | del k => exact h.delItem k
  | get k d => simp only [PySt.exec, PySt.get]; split; exacts [h, hval _ _ ‹_›]
  | getItem k => simp only [PySt.exec, PySt.getItem]; split; exacts [h, hval _ _ ‹_›]
  | setDefault k v =>
    have := hset k v (by rintro i rfl; exact hd)
    simp only [PySt.exec, PySt.setDefault]
    split
    · split <;> rename_i e <;> rw [e] at this <;> exact this
    · exact hval _ _ ‹_›
  | pop k d =>
    simp only [PySt.exec, PySt.pop]
    split
    · split <;> exact h
    · exact hval _ _ ‹_›
  | clear =>
    simp only [PySt.exec, PySt.clear]
    rw [PySt.foldl_touch_live h.live]
    exact ⟨by simp, by simp, by simp, h.ok⟩
  | access i =>
    simp only [PySt.exec]
    rw [PySt.touch_live hd]; exact h
  | setPersistent i b => exact h.setFlag hd b
  | run l =>
    simp only [PySt.exec]
    simp only [PyOp.Disciplined] at hd
    have key : ∀ (l : List RunStep) (s : PySt), s.Good → (∀ pre k post, l = pre ++ .undef k :: post →
        ∀ item, (pre.foldl PySt.step s).contents.find k = some item → item.persistent = true) → (l.foldl PySt.step s).Good := by
      intro l
      induction l with
      | nil => intro s h _; exact h
      | cons r l ih =>
        intro s h hd
        refine ih (s.step r) (h.step r ?_) ?_
        · rintro k rfl i o hi ho
          exact hd [] k l rfl ⟨o.obj, o.persistent⟩ (by
            simp only [List.foldl_nil]
            rw [PySt.contents_find s h.valid, hi]; simp [ho])
        · intro pre k post he item hitem
          exact hd (r :: pre) k post (by rw [he]; rfl) item hitem
    exact key l s h hd

/-- **C47, the part that holds**: after every disciplined history of dict operations and runs, followed by the destruction of the
convertor, no object was freed twice and none was read or written after it was freed. Missing: the property without the
discipline, which is false (`C47_violated_*`), and that every object is freed, which is false as well
(`C47_violated_leak`). -/
theorem C47_no_double_free_partial (ops : List PyOp) (h : DisciplinedHist PySt.empty ops) :
    (PySt.empty.execAll ops).bad = false ∧ (PySt.empty.execAll ops).destroy.bad = false := by
  have key : ∀ (ops : List PyOp) (s : PySt), s.Good → DisciplinedHist s ops → (s.execAll ops).Good := by
    intro ops
    induction ops with
    | nil => intro s h _; exact h
    | cons op r ih =>
      intro s h hd
      cases hd with
      | cons h1 h2 => exact ih (s.exec op) (good_exec h op h1) h2
  have hg := key ops _ ⟨by simp [PySt.empty], by simp [PySt.empty], by simp [PySt.empty], rfl⟩ h
  exact ⟨hg.ok, (PySt.destroy_bad _).2 ⟨hg.ok, hg.ids, hg.live⟩⟩

/-- a disciplined history: two texts, a wrapper moved from one key to another one, a run with a definition, a deletion -/
example : DisciplinedHist PySt.empty [.set (c! "A") (.str (c! "1")), .new (c! "B") none (.str (c! "2")), .set (c! "B") (.proxy 1),
    .access 0, .run [.undefineall, .insert (c! "C") (.user ⟨c! "C", false, [], []⟩), .use (c! "A"), .undef (c! "A")],
    .del (c! "B"), .set (c! "B") .none] := by
  refine .cons trivial (.cons trivial (.cons ⟨⟨_, rfl, rfl⟩, ?_⟩ (.cons ⟨_, rfl, rfl⟩ (.cons ?_ (.cons trivial (.cons trivial (.nil _)))))))
  · intro k' hk'
    have := PySt.find_some_mem hk'
    have hdb : ((PySt.empty.exec (.set (c! "A") (.str (c! "1")))).exec (.new (c! "B") none (.str (c! "2")))).db = [(c! "A", 0)] := by decide
    rw [hdb] at this
    simp at this
  · intro pre k post he item hitem
    rcases pre with _ | ⟨a, _ | ⟨b, _ | ⟨c, _ | ⟨d, pre⟩⟩⟩⟩ <;> simp only [List.nil_append, List.cons_append, List.cons.injEq, reduceCtorEq, false_and, and_false, RunStep.undef.injEq] at he
    · obtain ⟨rfl, rfl, rfl, rfl, -⟩ := he
      revert hitem
      generalize hx : MacroDB.find _ (c! "A") = x
      have : x = some ⟨.user ⟨c! "A", false, [], [.lit (c! "1")]⟩, true⟩ := by rw [← hx]; decide
      rw [this]
      intro h
      obtain rfl := Option.some.inj h
      rfl
    · obtain ⟨-, -, -, -, he⟩ := he
      cases pre <;> simp at he

/-- **C47, violated**: a live object stored under a second key is freed twice at the end. -/
theorem C47_violated_two_keys (s : PySt) (k1 k2 : Str) (i : Nat) (hne : k1 ≠ k2) (h1 : s.find k1 = some i) :
    (s.exec (.set k2 (.proxy i))).destroy.bad = true := by
  by_contra hb
  have hb : (s.exec (.set k2 (.proxy i))).destroy.bad = false := by simpa using hb
  obtain ⟨-, hnd, -⟩ := (PySt.destroy_bad _).1 hb
  have hm1 : (k1, i) ∈ PySt.assign s.db k2 i := (PySt.mem_assign s k2 i _).2 (.inr ⟨PySt.find_some_mem h1, hne⟩)
  have hm2 : (k2, i) ∈ PySt.assign s.db k2 i := (PySt.mem_assign s k2 i _).2 (.inl rfl)
  have := List.inj_on_of_nodup_map hnd hm1 hm2 rfl
  exact hne (Prod.mk.inj this).1

example : ∃ s, Reachable s ∧ s.find (c! "A") = some 0 :=
  ⟨_, .step (.set (c! "A") (.str (c! "1"))) .empty trivial, by decide⟩

/-- **C47, violated**: an `` `undef `` of a macro defined in the sources reads the freed map node. -/
theorem C47_violated_undef (s : PySt) (k : Str) (i : Nat) (o : HObj) (h1 : s.find k = some i) (h2 : s.heap[i]? = some o)
    (h3 : o.persistent = false) : (s.step (.undef k)).bad = true := by
  simp [PySt.step, h1, h2, h3]

example : ∃ s, Reachable s ∧ s.find (c! "B") = some 0 ∧ (s.heap[0]?).map HObj.persistent = some false :=
  ⟨_, .step (.run [.insert (c! "B") (.user ⟨c! "B", false, [], []⟩)]) .empty trivial, by decide, by decide⟩

/-- **C47, violated**: a wrapper obtained before `del db[k]` reads a freed object afterwards. -/
theorem C47_violated_stale_wrapper (s : PySt) (k : Str) (i : Nat) (h : s.find k = some i) (hl : s.Live i) :
    ((s.exec (.del k)).exec (.access i)).bad = true := by
  obtain ⟨o, h1, h2⟩ := hl
  have hlt := (List.getElem?_eq_some_iff.1 h1).1
  have hfree : s.free i = { s with heap := s.heap.set i { o with freed := true } } := by
    unfold PySt.free; rw [h1]; simp [h2]
  have he : s.exec (.del k) = { s.free i with db := s.db.filter (fun p => p.1 != k) } := by
    simp only [PySt.exec, PySt.delItem, h]
  rw [he, hfree]
  simp [PySt.exec, PySt.touch, hlt]

example : ∃ s, Reachable s ∧ s.find (c! "A") = some 0 ∧ s.Live 0 :=
  ⟨_, .step (.set (c! "A") (.str (c! "1"))) .empty trivial, by decide, ⟨_, rfl, rfl⟩⟩

/-- **C47, violated**: an object that is replaced in the database is never freed: `db[k] = t1; db[k] = t2` and the end of the
convertor leave it allocated. -/
theorem C47_violated_leak (s : PySt) (hg : s.Good) (k t1 t2 : Str) (h1 : endsInString false none t1 = false)
    (h2 : endsInString false none t2 = false) :
    ((s.exec (.set k (.str t1))).exec (.set k (.str t2))).destroy.Live s.heap.length := by
  have hnew : ∀ t, endsInString false none t = false → ∃ m, MacroDef.new k false [] t = .ok m := by
    intro t ht
    obtain ⟨fr, hfr, -⟩ := (parseBody_spec k [] t ⟨by simp, by simp⟩).2 ht
    exact ⟨_, by simp [MacroDef.new, hfr, bind, Except.bind, pure, Except.pure]; rfl⟩
  have hset : ∀ (s : PySt) t, endsInString false none t = false → ∃ m, s.exec (.set k (.str t)) =
      { (s.alloc (.user m)).2.setFlag s.heap.length true with db := PySt.assign s.db k s.heap.length } := by
    intro s t ht
    obtain ⟨m, hm⟩ := hnew t ht
    rcases setItem_cases s k (.str t) with ⟨i, hi, e⟩ | ⟨t', m', ht', hnew', e⟩ | ⟨h1, -, -, e⟩ | ⟨t', ht', ⟨x, hx⟩, e⟩
    · simp at hi
    · exact ⟨m', by simp [PySt.exec, e]⟩
    · exact absurd rfl (h1 t)
    · simp at ht'; subst ht'; rw [hm] at hx; simp at hx
  obtain ⟨m1, e1⟩ := hset s t1 h1
  obtain ⟨m2, e2⟩ := hset (s.exec (.set k (.str t1))) t2 h2
  -- objects that are not in the database survive the destruction
  have hsurv : ∀ (l : List Nat) (s : PySt) (i : Nat), s.Live i → i ∉ l → (l.foldl PySt.free s).Live i := by
    intro l
    induction l with
    | nil => intro s i h _; exact h
    | cons j r ih =>
      intro s i h hn
      simp only [List.mem_cons, not_or] at hn
      refine ih _ i ?_ hn.2
      unfold PySt.free
      split
      · split
        · exact h
        · obtain ⟨o, ho, hf⟩ := h
          exact ⟨o, by simp only [List.getElem?_set, Ne.symm hn.1, if_false]; exact ho, hf⟩
      · exact h
  have hd : ∀ s : PySt, s.destroy = (s.db.map Prod.snd).foldl PySt.free s := by intro s; rw [PySt.destroy, List.foldl_map]
  rw [hd]
  apply hsurv
  · rw [e2]
    refine PySt.setFlag_live.2 (PySt.alloc_live.2 (.inl ?_))
    rw [e1]
    exact PySt.setFlag_live.2 (PySt.alloc_live.2 (.inr rfl))
  · rw [e2]
    intro hc
    obtain ⟨p, hp, he⟩ := List.mem_map.1 hc
    have hlen : (s.exec (.set k (.str t1))).heap.length = s.heap.length + 1 := by
      rw [e1]; simp [PySt.setFlag, PySt.alloc]
    rcases (PySt.mem_assign (s.exec (.set k (.str t1))) k _ p).1 hp with rfl | ⟨hp, hpk⟩
    · simp only at he; omega
    · rw [e1] at hp
      rcases (PySt.mem_assign s k _ p).1 hp with rfl | ⟨hp, -⟩
      · exact hpk rfl
      · have := (hg.live p hp).lt
        omega

example : PySt.Good PySt.empty ∧ endsInString false none (c! "1") = false :=
  ⟨⟨by simp [PySt.empty], by simp [PySt.empty], by simp [PySt.empty], rfl⟩, by decide⟩

/-! ## C53 -/

/-- **C53, violated in general**: assigning a text with an unterminated string ends the process, for every key and state. -/
theorem C53_violated_general (s : PySt) (k t : Str) :
    (s.setItem k (.str t)).1 = .abort ↔ endsInString false none t = true := by
  have hs := parseBody_spec k [] t ⟨by simp, by simp⟩
  rcases setItem_cases s k (.str t) with ⟨i, hi, e⟩ | ⟨t', m', ht', hnew', e⟩ | ⟨h1, -, -, e⟩ | ⟨t', ht', ⟨x, hx⟩, e⟩
  · simp at hi
  · simp at ht'; subst ht'
    rw [e]
    refine ⟨by simp, fun ht => ?_⟩
    obtain ⟨e, he⟩ := hs.1 ht
    simp [MacroDef.new, he, bind, Except.bind] at hnew'
  · exact absurd rfl (h1 t)
  · simp at ht'; subst ht'
    rw [e]
    refine ⟨fun _ => ?_, fun _ => rfl⟩
    cases he : endsInString false none t with
    | true => rfl
    | false =>
      obtain ⟨fr, hfr, -⟩ := hs.2 he
      simp [MacroDef.new, hfr, bind, Except.bind, pure, Except.pure] at hx

/-- C53 is false: `db["A"] = '"x'` ends the process. -/
theorem C53_violated_witness : (PySt.empty.setItem (c! "A") (.str (c! "\"x"))).1 = .abort := by decide

/-- **C53, the part that holds**: a value that is no text and no macro raises an exception and the database is unchanged; a text
without an unterminated string is stored. Missing: texts with an unterminated string. -/
theorem C53_no_abort_partial (s : PySt) (k : Str) (v : PyVal) (hv : ∀ t, v = .str t → endsInString false none t = false) :
    (s.setItem k v).1 = .ok () ∨ ((s.setItem k v).1 = .raise .typeError ∧ (s.setItem k v).2 = s) := by
  rcases setItem_cases s k v with ⟨i, hi, e⟩ | ⟨t', m', ht', hnew', e⟩ | ⟨h1, -, -, e⟩ | ⟨t', ht', ⟨x, hx⟩, e⟩
  · exact .inl (by rw [e])
  · exact .inl (by rw [e])
  · exact .inr (by rw [e]; exact ⟨rfl, rfl⟩)
  · exfalso
    have : endsInString false none t' = false := by
      rcases ht' with h | ⟨-, rfl⟩
      · exact hv t' h
      · rfl
    obtain ⟨fr, hfr, -⟩ := (parseBody_spec k [] t' ⟨by simp, by simp⟩).2 this
    simp [MacroDef.new, hfr, bind, Except.bind, pure, Except.pure] at hx

example : ∀ t, PyVal.str (c! "a \"b\"") = .str t → endsInString false none t = false := by
  intro t h; obtain rfl := PyVal.str.inj h; decide

end Verif
