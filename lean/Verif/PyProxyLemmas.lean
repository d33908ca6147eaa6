import Verif.PyProxy
import Verif.PreprocLemmas
import Mathlib.Data.List.Nodup
/-!
# Helper lemmas for the Python view of the macro database
-/
namespace Verif

/-- The object exists and is not freed. -/
def PySt.Live (s : PySt) (i : Nat) : Prop := ∃ o, s.heap[i]? = some o ∧ o.freed = false

/-- All pointers of the database are addresses of allocated objects, keys are unique. -/
structure PySt.Valid (s : PySt) : Prop where
  keys : (s.db.map Prod.fst).Nodup
  ptrs : ∀ p ∈ s.db, p.2 < s.heap.length

/-- No object is in the database twice, all are alive, nothing bad happened. -/
structure PySt.Good (s : PySt) : Prop where
  keys : (s.db.map Prod.fst).Nodup
  ids : (s.db.map Prod.snd).Nodup
  live : ∀ p ∈ s.db, s.Live p.2
  ok : s.bad = false

namespace PySt

theorem Live.lt {s : PySt} {i : Nat} (h : s.Live i) : i < s.heap.length := by
  obtain ⟨o, h, -⟩ := h
  exact (List.getElem?_eq_some_iff.1 h).1

theorem Good.valid {s : PySt} (h : s.Good) : s.Valid := ⟨h.keys, fun p hp => (h.live p hp).lt⟩

theorem touch_live {s : PySt} {i : Nat} (h : s.Live i) : s.touch i = s := by
  obtain ⟨o, h1, h2⟩ := h
  simp [touch, h1, h2]

theorem touch_heap (s : PySt) (i : Nat) : (s.touch i).heap = s.heap := by
  unfold touch; split <;> (try split) <;> rfl

theorem touch_db (s : PySt) (i : Nat) : (s.touch i).db = s.db := by
  unfold touch; split <;> (try split) <;> rfl

theorem touch_bad (s : PySt) (i : Nat) : s.bad = true → (s.touch i).bad = true := by
  intro h; unfold touch; split <;> (try split) <;> simp [h]

theorem free_db (s : PySt) (i : Nat) : (s.free i).db = s.db := by
  unfold free; split <;> (try split) <;> rfl

theorem free_length (s : PySt) (i : Nat) : (s.free i).heap.length = s.heap.length := by
  unfold free; split <;> (try split) <;> simp

theorem free_bad (s : PySt) (i : Nat) : s.bad = true → (s.free i).bad = true := by
  intro h; unfold free; split <;> (try split) <;> simp [h]

/-- Freeing changes neither the kind of an object nor its flag. -/
theorem free_get (s : PySt) (i j : Nat) :
    ((s.free i).heap[j]?).map (fun o => (o.obj, o.persistent)) = (s.heap[j]?).map (fun o => (o.obj, o.persistent)) := by
  unfold free
  split
  · rename_i o ho
    split
    · rfl
    · simp only [List.getElem?_set]
      split
      · rename_i hij
        subst hij
        have hlt := (List.getElem?_eq_some_iff.1 ho).1
        rw [if_pos hlt, ho]; rfl
      · rfl
  · rfl

theorem live_free {s : PySt} {i j : Nat} (hi : s.Live i) : (s.free i).Live j ↔ s.Live j ∧ j ≠ i := by
  obtain ⟨o, h1, h2⟩ := hi
  have hlt := (List.getElem?_eq_some_iff.1 h1).1
  simp only [Live, free, h1, h2, Bool.false_eq_true, if_false, List.getElem?_set]
  by_cases hij : i = j
  · subst hij; simp [hlt]
  · simp [hij, Ne.symm hij]

theorem free_bad_iff (s : PySt) (i : Nat) : (s.free i).bad = false ↔ s.bad = false ∧ s.Live i := by
  unfold free Live
  split
  · rename_i o ho
    cases hf : o.freed <;> simp [hf, ho]
  · rename_i ho; simp [ho]

/-- Exact condition for a clean destruction of a list of objects. -/
theorem foldl_free_bad (l : List Nat) (s : PySt) :
    (l.foldl free s).bad = false ↔ s.bad = false ∧ l.Nodup ∧ ∀ i ∈ l, s.Live i := by
  induction l generalizing s with
  | nil => simp
  | cons i r ih =>
    rw [List.foldl_cons, ih, free_bad_iff]
    by_cases hi : s.Live i
    · simp only [hi, and_true, live_free hi, List.nodup_cons, List.mem_cons, forall_eq_or_imp, true_and]
      constructor
      · rintro ⟨h1, h2, h3⟩
        exact ⟨h1, ⟨fun hm => (h3 i hm).2 rfl, h2⟩, fun j hj => (h3 j hj).1⟩
      · rintro ⟨h1, ⟨h2, h3⟩, h4⟩
        exact ⟨h1, h3, fun j hj => ⟨h4 j hj, fun e => h2 (e ▸ hj)⟩⟩
    · simp [hi]

theorem destroy_bad (s : PySt) :
    s.destroy.bad = false ↔ s.bad = false ∧ (s.db.map Prod.snd).Nodup ∧ ∀ p ∈ s.db, s.Live p.2 := by
  have : s.destroy = (s.db.map Prod.snd).foldl free s := by rw [destroy, List.foldl_map]
  rw [this, foldl_free_bad]
  simp only [List.mem_map, forall_exists_index, and_imp]
  constructor
  · rintro ⟨h1, h2, h3⟩; exact ⟨h1, h2, fun p hp => h3 _ p hp rfl⟩
  · rintro ⟨h1, h2, h3⟩; exact ⟨h1, h2, fun i p hp e => e ▸ h3 p hp⟩

/-! ### lookups -/

theorem find_some_mem {s : PySt} {k : Str} {i : Nat} (h : s.find k = some i) : (k, i) ∈ s.db := by
  simp only [find, Option.map_eq_some_iff] at h
  obtain ⟨p, hp, rfl⟩ := h
  have h1 := List.mem_of_find?_eq_some hp
  have h2 := List.find?_some hp
  simp only [beq_iff_eq] at h2
  rwa [← h2]

theorem find_none_iff {s : PySt} {k : Str} : s.find k = none ↔ ∀ p ∈ s.db, p.1 ≠ k := by
  simp [find, List.find?_eq_none]

theorem find_of_mem {s : PySt} (h : (s.db.map Prod.fst).Nodup) {k : Str} {i : Nat} (hm : (k, i) ∈ s.db) : s.find k = some i := by
  cases hf : s.find k with
  | none => exact absurd rfl (find_none_iff.1 hf _ hm)
  | some j =>
    have := find_some_mem hf
    have := List.inj_on_of_nodup_map h this hm rfl
    simpa using this

theorem find_iff {s : PySt} (h : (s.db.map Prod.fst).Nodup) {k : Str} {i : Nat} : s.find k = some i ↔ (k, i) ∈ s.db :=
  ⟨find_some_mem, find_of_mem h⟩

theorem any_iff {s : PySt} {k : Str} : s.db.any (fun p => p.1 == k) = (s.find k).isSome := by
  cases h : s.find k with
  | none => simpa [List.any_eq_false] using fun a b hm => find_none_iff.1 h (a, b) hm
  | some i => simpa [List.any_eq_true] using ⟨i, find_some_mem h⟩

theorem assign_keys (s : PySt) (k : Str) (i : Nat) (h : (s.db.map Prod.fst).Nodup) : ((assign s.db k i).map Prod.fst).Nodup := by
  unfold assign
  rw [any_iff]
  split
  · rw [List.map_map]
    have : (Prod.fst ∘ fun p : Str × Nat => if p.1 == k then (k, i) else p) = Prod.fst := by
      funext p
      by_cases hp : p.1 = k <;> simp [hp]
    rwa [this]
  · rename_i hn
    have hn : s.find k = none := by simpa using hn
    rw [List.map_append, List.nodup_append]
    refine ⟨h, by simp, ?_⟩
    intro a ha b hb
    simp only [List.map_cons, List.map_nil, List.mem_singleton] at hb
    obtain ⟨p, hp, rfl⟩ := List.mem_map.1 ha
    rw [hb]
    exact find_none_iff.1 hn p hp

theorem mem_assign (s : PySt) (k : Str) (i : Nat) (p : Str × Nat) :
    p ∈ assign s.db k i ↔ p = (k, i) ∨ (p ∈ s.db ∧ p.1 ≠ k) := by
  unfold assign
  rw [any_iff]
  split
  · rename_i hs
    simp only [List.mem_map]
    constructor
    · rintro ⟨q, hq, rfl⟩
      by_cases h : q.1 = k
      · simp [h]
      · simp [h, hq]
    · rintro (rfl | ⟨h1, h2⟩)
      · obtain ⟨j, hj⟩ := Option.isSome_iff_exists.1 hs
        exact ⟨(k, j), find_some_mem hj, by simp⟩
      · exact ⟨p, h1, by simp [h2]⟩
  · rename_i hn
    have hn : s.find k = none := by simpa using hn
    simp only [List.mem_append, List.mem_singleton]
    constructor
    · rintro (h | h)
      · exact .inr ⟨h, find_none_iff.1 hn p h⟩
      · exact .inl h
    · rintro (h | h)
      · exact .inr h
      · exact .inl h.1

theorem assign_length (s : PySt) (k : Str) (i : Nat) :
    (assign s.db k i).length = s.db.length + if (s.find k).isSome then 0 else 1 := by
  unfold assign
  rw [any_iff]
  split <;> simp

theorem find_assign (s : PySt) (h : (s.db.map Prod.fst).Nodup) (k : Str) (i : Nat) (heap : List HObj) (b : Bool) (k' : Str) :
    (PySt.mk heap (assign s.db k i) b).find k' = if k' = k then some i else s.find k' := by
  have hk : ((PySt.mk heap (assign s.db k i) b).db.map Prod.fst).Nodup := assign_keys s k i h
  apply Option.ext
  intro j
  rw [find_iff hk]
  change (k', j) ∈ assign s.db k i ↔ _
  rw [mem_assign]
  split
  · rename_i e; subst e; simp [eq_comm]
  · rename_i e; simp [e, find_iff h]

theorem find_filter (s : PySt) (h : (s.db.map Prod.fst).Nodup) (k : Str) (heap : List HObj) (b : Bool) (k' : Str) :
    (PySt.mk heap (s.db.filter (fun p => p.1 != k)) b).find k' = if k' = k then none else s.find k' := by
  have hk : ((PySt.mk heap (s.db.filter (fun p => p.1 != k)) b).db.map Prod.fst).Nodup :=
    (List.Sublist.map _ List.filter_sublist).nodup h
  apply Option.ext
  intro j
  rw [find_iff hk]
  simp only [List.mem_filter, bne_iff_ne, ne_eq]
  split
  · rename_i e; subst e; simp
  · rename_i e; simp [e, find_iff h]

/-! ### `Good` is kept -/

theorem foldl_touch_live {s : PySt} {l : List (Str × Nat)} (h : ∀ p ∈ l, s.Live p.2) :
    l.foldl (fun s p => s.touch p.2) s = s := by
  induction l with
  | nil => rfl
  | cons p r ih =>
    rw [List.foldl_cons, touch_live (h p (by simp))]
    exact ih fun q hq => h q (by simp [hq])

theorem foldl_touch_heap (s : PySt) (l : List (Str × Nat)) :
    (l.foldl (fun s p => s.touch p.2) s).heap = s.heap ∧ (l.foldl (fun s p => s.touch p.2) s).db = s.db := by
  induction l generalizing s with
  | nil => exact ⟨rfl, rfl⟩
  | cons p r ih =>
    rw [List.foldl_cons]
    obtain ⟨h1, h2⟩ := ih (s.touch p.2)
    exact ⟨h1.trans (touch_heap _ _), h2.trans (touch_db _ _)⟩

theorem alloc_live {s : PySt} {o : MacroObj} {i : Nat} : (s.alloc o).2.Live i ↔ s.Live i ∨ i = s.heap.length := by
  simp only [Live, alloc]
  by_cases h : i < s.heap.length
  · rw [List.getElem?_append_left h]
    constructor
    · exact .inl
    · rintro (h' | h')
      · exact h'
      · omega
  · by_cases h2 : i = s.heap.length
    · subst h2; simp
    · have : s.heap.length ≤ i := by omega
      rw [List.getElem?_append_right this]
      have e : ([⟨o, false, false⟩] : List HObj)[i - s.heap.length]? = none := by
        apply List.getElem?_eq_none; simp; omega
      rw [e, List.getElem?_eq_none this]
      simp [h2]

theorem Good.alloc {s : PySt} (h : s.Good) (o : MacroObj) : (s.alloc o).2.Good :=
  ⟨h.keys, h.ids, fun p hp => alloc_live.2 (.inl (h.live p hp)), h.ok⟩

theorem proxyNew_cases (s : PySt) (n : Str) (ps : Option (List PyParam)) (b : PyVal) :
    (∃ m, proxyNew s n ps b = (.ok s.heap.length, (s.alloc (.user m)).2)) ∨
    (∃ e, proxyNew s n ps b = (.raise e, s)) ∨ proxyNew s n ps b = (.abort, s) := by
  unfold proxyNew
  simp only
  split
  · exact .inr (.inl ⟨_, rfl⟩)
  · split
    · exact .inl ⟨_, rfl⟩
    · exact .inr (.inr rfl)

theorem setFlag_db (s : PySt) (i : Nat) (b : Bool) : (s.setFlag i b).db = s.db := by simp [setFlag, touch_db]

theorem setFlag_live {s : PySt} {i j : Nat} {b : Bool} : (s.setFlag i b).Live j ↔ s.Live j := by
  simp only [Live, setFlag, List.getElem?_modify]
  cases h : s.heap[j]? with
  | none => simp
  | some o =>
    by_cases hij : i = j <;> simp [hij]

theorem setFlag_bad {s : PySt} {i : Nat} {b : Bool} (h : s.Live i) : (s.setFlag i b).bad = s.bad := by
  simp [setFlag, touch_live h]

theorem Good.setFlag {s : PySt} (h : s.Good) {i : Nat} (hi : s.Live i) (b : Bool) : (s.setFlag i b).Good :=
  ⟨by rw [setFlag_db]; exact h.keys, by rw [setFlag_db]; exact h.ids,
   fun p hp => setFlag_live.2 (h.live p (by rwa [setFlag_db] at hp)), (setFlag_bad hi).trans h.ok⟩

/-- Storing a live object which is not in the database under another key. -/
theorem Good.store {s : PySt} (h : s.Good) {k : Str} {i : Nat} (hi : s.Live i) (hne : ∀ p ∈ s.db, p.2 = i → p.1 = k) (b : Bool) :
    PySt.Good { s.setFlag i b with db := assign s.db k i } := by
  have hmem : ∀ p, p ∈ assign s.db k i → p = (k, i) ∨ (p ∈ s.db ∧ p.1 ≠ k) := fun p => (mem_assign s k i p).1
  refine ⟨assign_keys s k i h.keys, ?_, ?_, (setFlag_bad (b := b) hi).trans h.ok⟩
  · have hk := assign_keys s k i h.keys
    refine (List.nodup_map_iff_inj_on (List.Nodup.of_map _ hk)).2 ?_
    intro p hp q hq e
    rcases hmem p hp with rfl | ⟨hp1, hp2⟩ <;> rcases hmem q hq with rfl | ⟨hq1, hq2⟩
    · rfl
    · exact absurd (hne q hq1 e.symm) hq2
    · exact absurd (hne p hp1 e) hp2
    · exact List.inj_on_of_nodup_map h.ids hp1 hq1 e
  · intro p hp
    have : s.Live p.2 := by
      rcases hmem p hp with rfl | ⟨hp1, -⟩
      · exact hi
      · exact h.live p hp1
    exact setFlag_live.2 this

theorem Good.filter {s : PySt} (h : s.Good) (f : Str × Nat → Bool) : PySt.Good { s with db := s.db.filter f } :=
  ⟨(List.Sublist.map _ List.filter_sublist).nodup h.keys, (List.Sublist.map _ List.filter_sublist).nodup h.ids,
   fun p hp => h.live p (List.mem_filter.1 hp).1, h.ok⟩

theorem value_state {s : PySt} {i : Nat} (h : s.Live i) : (s.value i).2 = s := touch_live h

theorem Good.setItem {s : PySt} (h : s.Good) {k : Str} {v : PyVal}
    (hv : ∀ i, v = .proxy i → s.Live i ∧ ∀ p ∈ s.db, p.2 = i → p.1 = k) : (s.setItem k v).2.Good := by
  have hnew : ∀ v, (∀ i, v ≠ .proxy i) → (match proxyNew s k none v with
      | (.ok i, s) => (.ok (), { s.setFlag i true with db := assign s.db k i })
      | (.raise e, s) => (.raise e, s)
      | (.abort, s) => (.abort, s) : PyOut Unit × PySt).2.Good := by
    intro v _
    rcases proxyNew_cases s k none v with ⟨m, e⟩ | ⟨x, e⟩ | e
    · rw [e]
      refine (h.alloc (.user m)).store (alloc_live.2 (.inr rfl)) ?_ true
      intro p hp e
      have := (h.live p hp).lt
      omega
    · rw [e]; exact h
    · rw [e]; exact h
  cases v with
  | proxy i => exact h.store (hv i rfl).1 (hv i rfl).2 true
  | inaccessible => exact hnew .inaccessible (by simp)
  | str t => exact hnew _ (by simp)
  | none => exact hnew .none (by simp)
  | other => exact hnew .other (by simp)

theorem Good.delItem {s : PySt} (h : s.Good) (k : Str) : (s.delItem k).2.Good := by
  unfold PySt.delItem
  split
  · exact h
  · rename_i i hi
    have hm := find_some_mem hi
    have hl := h.live _ hm
    refine ⟨(List.Sublist.map _ List.filter_sublist).nodup h.keys, (List.Sublist.map _ List.filter_sublist).nodup h.ids, ?_, ?_⟩
    · intro p hp
      obtain ⟨hp1, hp2⟩ := List.mem_filter.1 hp
      have := (live_free hl (j := p.2)).2 ⟨h.live p hp1, fun e => by
        have := List.inj_on_of_nodup_map h.ids hp1 hm e
        rw [this] at hp2; simp at hp2⟩
      exact this
    · have := (free_bad_iff s i).2 ⟨h.ok, hl⟩
      exact this

/-- Steps of a run without an effective `undef`. -/
theorem Good.step {s : PySt} (h : s.Good) (r : RunStep)
    (hr : ∀ k, r = .undef k → ∀ i o, s.find k = some i → s.heap[i]? = some o → o.persistent = true) : (s.step r).Good := by
  cases r with
  | insert k o =>
    simp only [PySt.step]
    have h' := h.alloc o
    split
    · exact h'
    · rename_i hn
      have hn : (s.alloc o).2.find k = none := by simpa using hn
      have hs := h'.store (k := k) (i := s.heap.length) (alloc_live.2 (.inr rfl)) (by
        intro p hp e
        have := (h.live p hp).lt
        omega) false
      refine ⟨?_, ?_, ?_, h'.ok⟩
      · have := hs.keys
        simpa [assign, any_iff, hn] using this
      · have := hs.ids
        rw [assign, any_iff, hn] at this
        exact this
      · intro p hp
        have := hs.live p (by rw [assign, any_iff, hn]; exact hp)
        exact setFlag_live.1 this
  | undef k =>
    simp only [PySt.step]
    split
    · exact h
    · rename_i i hi
      have hl := h.live _ (find_some_mem hi)
      obtain ⟨o, ho, -⟩ := id hl
      rw [ho]
      simp only [hr k rfl i o hi ho, if_true]
      rw [touch_live hl]
      exact h
  | undefineall =>
    simp only [PySt.step]
    rw [foldl_touch_live h.live]
    exact h.filter _
  | use k =>
    simp only [PySt.step]
    split
    · exact h
    · rename_i i hi
      rw [touch_live (h.live _ (find_some_mem hi))]
      exact h

/-! ### The heap level refines the database of the preprocessor model -/

theorem contents_eq (s : PySt) (heap : List HObj) (b : Bool)
    (h : ∀ p ∈ s.db, (heap[p.2]?).map (fun o => (o.obj, o.persistent)) = (s.heap[p.2]?).map (fun o => (o.obj, o.persistent))) :
    (PySt.mk heap s.db b).contents = s.contents := by
  unfold contents
  apply List.filterMap_congr
  intro p hp
  have := h p hp
  cases h1 : heap[p.2]? <;> cases h2 : s.heap[p.2]? <;> simp_all

theorem contents_find (s : PySt) (hv : s.Valid) (k : Str) :
    s.contents.find k = (s.find k).bind fun i => (s.heap[i]?).map fun o => ⟨o.obj, o.persistent⟩ := by
  have hp := hv.ptrs
  unfold contents find MacroDB.find
  generalize s.db = l at hp
  induction l with
  | nil => rfl
  | cons p r ih =>
    have hlt := hp p (by simp)
    have ih := ih fun q hq => hp q (by simp [hq])
    have e : s.heap[p.2]? = some s.heap[p.2] := List.getElem?_eq_getElem hlt
    rw [List.filterMap_cons, e]
    simp only [Option.map_some]
    rw [List.find?_cons, List.find?_cons]
    by_cases hk : p.1 = k
    · have : (p.1 == k) = true := by simpa using hk
      simp only [this, Option.map_some, Option.bind_some, e]
    · have : (p.1 == k) = false := by simpa using hk
      simp only [this]
      exact ih

theorem contents_filter_key (s : PySt) (heap : List HObj) (b : Bool) (f : Str → Bool)
    (h : ∀ p ∈ s.db, (heap[p.2]?).map (fun o => (o.obj, o.persistent)) = (s.heap[p.2]?).map (fun o => (o.obj, o.persistent))) :
    (PySt.mk heap (s.db.filter (fun p => f p.1)) b).contents = List.filter (fun p => f p.1) s.contents := by
  unfold contents
  rw [List.filter_filterMap, List.filterMap_filter]
  apply List.filterMap_congr
  intro p hp
  have := h p hp
  cases h1 : heap[p.2]? <;> cases h2 : s.heap[p.2]? <;> cases hf : f p.1 <;> simp_all [Option.filter]

theorem step_contents (s : PySt) (hv : s.Valid) (r : RunStep) (b : Bool) :
    (s.step r).contents = (r.onDb (s.contents, b)).1 ∧ (s.step r).Valid ∧
    ((r.onDb (s.contents, b)).2 = true → b = true ∨ (s.step r).bad = true) := by
  cases r with
  | insert k o =>
    have hc : (s.alloc o).2.contents = s.contents :=
      contents_eq s _ _ (fun p hp => by rw [List.getElem?_append_left (hv.ptrs p hp)])
    have hf : (s.alloc o).2.find k = s.find k := rfl
    have hfi : (s.contents.find k).isSome = (s.find k).isSome := by
      rw [contents_find s hv]
      cases hk : s.find k with
      | none => rfl
      | some i =>
        have := hv.ptrs _ (find_some_mem hk)
        simp [List.getElem?_eq_getElem this]
    have hval : (s.alloc o).2.Valid := ⟨hv.keys, fun p hp => by
      have := hv.ptrs p hp
      simp only [PySt.alloc, List.length_append, List.length_singleton]; omega⟩
    simp only [step, RunStep.onDb, MacroDB.insert, hfi, hf]
    split
    · exact ⟨hc, hval, .inl⟩
    · rename_i hn
      have hn : s.find k = none := by simpa using hn
      refine ⟨?_, ⟨?_, ?_⟩, .inl⟩
      · have := hc
        simp only [contents, PySt.alloc] at this ⊢
        rw [List.filterMap_append, this]
        simp
      · have := assign_keys s k s.heap.length hv.keys
        rw [assign, any_iff, hn] at this
        exact this
      · intro p hp
        simp only [PySt.alloc, List.length_append, List.length_singleton, List.mem_append, List.mem_singleton] at hp ⊢
        rcases hp with hp | rfl
        · have := hv.ptrs p hp; omega
        · simp
  | undef k =>
    simp only [step, RunStep.onDb, contents_find s hv]
    cases hk : s.find k with
    | none => exact ⟨rfl, hv, .inl⟩
    | some i =>
      have hlt := hv.ptrs _ (find_some_mem hk)
      simp only [List.getElem?_eq_getElem hlt, Option.bind_some, Option.map_some]
      split
      · refine ⟨?_, ?_, .inl⟩
        · have := contents_eq s (s.touch i).heap (s.touch i).bad (fun p _ => by rw [touch_heap])
          rw [← this]
          have hdb := touch_db s i
          rw [← hdb]
        · exact ⟨by rw [touch_db]; exact hv.keys, by rw [touch_db, touch_heap]; exact hv.ptrs⟩
      · refine ⟨?_, ⟨?_, ?_⟩, fun _ => .inr rfl⟩
        · exact contents_filter_key s _ _ (fun x => x != k) (fun p _ => by rw [free_get, touch_heap])
        · exact (List.Sublist.map _ List.filter_sublist).nodup hv.keys
        · intro p hp
          have := hv.ptrs p (List.mem_filter.1 hp).1
          simp only [free_length, touch_heap]; exact this
  | undefineall =>
    obtain ⟨h1, h2⟩ := foldl_touch_heap s s.db
    simp only [step, RunStep.onDb]
    refine ⟨?_, ⟨?_, ?_⟩, .inl⟩
    · simp only [contents, MacroDB.deleteNonPersistent, h1]
      rw [List.filter_filterMap, List.filterMap_filter]
      apply List.filterMap_congr
      intro p hp
      have hlt := hv.ptrs p hp
      simp only [List.getElem?_eq_getElem hlt, Option.any_some, Option.map_some]
      cases (s.heap[p.2]).persistent <;> simp [Option.filter]
    · exact (List.Sublist.map _ List.filter_sublist).nodup hv.keys
    · intro p hp
      rw [h1]
      exact hv.ptrs p (List.mem_filter.1 hp).1
  | use k =>
    simp only [step, RunStep.onDb]
    split
    · exact ⟨rfl, hv, .inl⟩
    · rename_i i hi
      refine ⟨?_, ?_, .inl⟩
      · have := contents_eq s (s.touch i).heap (s.touch i).bad (fun p _ => by rw [touch_heap])
        rw [← this]
        have hdb := touch_db s i
        rw [← hdb]
      · exact ⟨by rw [touch_db]; exact hv.keys, by rw [touch_db, touch_heap]; exact hv.ptrs⟩

end PySt
end Verif
