import Verif.Spec.Lines
import Mathlib.Tactic.Ring
/-! Helper lemmas about the output buffer. -/
namespace Verif
open Verif.Spec

theorem nl_append (a b : Str) : nl (a ++ b) = nl a + nl b := by simp [nl]

theorem endls_eq (k : Nat) (o : OutBuf) :
    o.endls k = { o with text := o.text ++ List.replicate k '\n', outputLine := o.outputLine + BitVec.ofNat 64 k } := by
  induction k generalizing o with
  | zero => simp [OutBuf.endls]
  | succ k ih =>
    rw [OutBuf.endls, ih]
    simp only [OutBuf.endl, OutBuf.mk.injEq, true_and, and_true]
    constructor
    · rw [List.append_assoc]; rfl
    · rw [BitVec.add_assoc]
      congr 1
      apply BitVec.eq_of_toNat_eq
      simp [Nat.add_comm]

theorem nl_replicate (k : Nat) : nl (List.replicate k '\n') = k := by simp [nl]

/-- counter = number of newlines modulo 2^64 -/
def CountInv (o : OutBuf) : Prop := o.outputLine = BitVec.ofNat 64 (nl o.text)

theorem ofNat_add64 (a b : Nat) : BitVec.ofNat 64 a + BitVec.ofNat 64 b = BitVec.ofNat 64 (a + b) := by
  rw [BitVec.ofNat_add]

theorem CountInv.endls {o : OutBuf} (h : CountInv o) (k : Nat) : CountInv (o.endls k) := by
  unfold CountInv at *
  rw [endls_eq]
  simp only [nl_append, nl_replicate]
  rw [h, ofNat_add64]

theorem CountInv.put {o : OutBuf} (h : CountInv o) (s : Str) : CountInv (o.put s) := by
  unfold CountInv at *
  simp only [OutBuf.put, nl_append]
  rw [h, ofNat_add64]

theorem CountInv.append {o c : OutBuf} (h : CountInv o) (h' : CountInv c) : CountInv (o.append c) := by
  unfold CountInv at *
  simp only [OutBuf.append, nl_append]
  rw [h, h', ofNat_add64]

/-- The two ways `setLine` can succeed. -/
theorem setLine_ok {o o' : OutBuf} {n : W} (h : o.setLine n = .ok o') :
    (∃ k : Nat, 0 < k ∧ k ≤ 3 ∧ n = o.inputLine + BitVec.ofNat 64 k ∧ o' = o.endls k) ∨
    (∃ last, o.map.getLast? = some last ∧
      o' = { o with map := o.map ++ [⟨o.outputLine, last.file, n⟩], offset := o.offset + (n - o.inputLine) }) := by
  unfold OutBuf.setLine at h
  simp only at h
  split at h
  · rename_i hc
    left
    refine ⟨(n - o.inputLine).toNat, ?_, ?_, ?_, ?_⟩
    · have := hc.1; rw [BitVec.lt_def] at this; simpa [OutBuf.inputLine] using this
    · have := hc.2; rw [BitVec.le_def] at this; simpa [OutBuf.inputLine, NEWLINE_TRESHOLD] using this
    · rw [BitVec.ofNat_toNat, BitVec.setWidth_eq]; bv_omega
    · simpa [OutBuf.inputLine] using h.symm
  · right
    cases hl : o.map.getLast? with
    | none => simp [hl] at h
    | some last => refine ⟨last, rfl, ?_⟩; simp [hl] at h; exact h.symm

theorem setFileLine_ok {o o' : OutBuf} {f : Str} {n : W} (h : o.setFileLine f n = .ok o') :
    ((∃ last, o.map.getLast? = some last ∧ last.file = f) ∧ o.setLine n = .ok o') ∨
    o' = { o with map := o.map ++ [⟨o.outputLine, f, n⟩], offset := o.begin_ + n - o.outputLine } := by
  unfold OutBuf.setFileLine at h
  simp only at h
  split at h
  · rename_i last hl
    split at h
    · rename_i hf; exact .inl ⟨⟨last, hl, hf⟩, h⟩
    · right; simpa using h.symm
  · right; simpa using h.symm

/-- Sorted map, no entry behind the current output line. -/
def MapInv (o : OutBuf) : Prop :=
  o.map.Pairwise (fun a b => a.line.toNat ≤ b.line.toNat) ∧ ∀ i ∈ o.map, i.line.toNat ≤ o.outputLine.toNat

theorem nl_lt_toNat {o : OutBuf} (h : CountInv o) (hn : nl o.text < 2 ^ 64) : o.outputLine.toNat = nl o.text := by
  rw [h, BitVec.toNat_ofNat, Nat.mod_eq_of_lt hn]

theorem MapInv.push {o : OutBuf} (h : MapInv o) (it : MapItem) (hl : it.line = o.outputLine) (off : W) :
    MapInv { o with map := o.map ++ [it], offset := off } := by
  refine ⟨?_, ?_⟩
  · rw [List.pairwise_append]
    refine ⟨h.1, by simp, ?_⟩
    intro a ha b hb
    simp at hb; subst hb; rw [hl]; exact h.2 a ha
  · intro i hi
    simp at hi
    rcases hi with hi | rfl
    · exact h.2 i hi
    · rw [hl]

theorem MapInv.mono {o o' : OutBuf} (h : MapInv o) (hm : o'.map = o.map)
    (hl : o.outputLine.toNat ≤ o'.outputLine.toNat) : MapInv o' :=
  ⟨by rw [hm]; exact h.1, by rw [hm]; intro i hi; exact (h.2 i hi).trans hl⟩

theorem Spec.Reach.count {o : OutBuf} (h : Reach o) : CountInv o := by
  induction h with
  | new b => simp [CountInv, OutBuf.new, nl]
  | put s _ ih => exact ih.put s
  | line n _ h ih =>
    rcases setLine_ok h with ⟨k, -, -, -, rfl⟩ | ⟨last, -, rfl⟩
    · exact ih.endls k
    · exact ih
  | fileLine f n _ h ih =>
    rcases setFileLine_ok h with ⟨-, h⟩ | rfl
    · rcases setLine_ok h with ⟨k, -, -, -, rfl⟩ | ⟨last, -, rfl⟩
      · exact ih.endls k
      · exact ih
    · exact ih
  | append _ _ ih1 ih2 => exact ih1.append ih2

theorem Spec.Reach.mapInv {o : OutBuf} (h : Reach o) (hn : nl o.text < 2 ^ 64) : MapInv o := by
  induction h with
  | new b => simp [MapInv, OutBuf.new]
  | @put o s hr ih =>
    have hn' : nl o.text < 2 ^ 64 := by simp [OutBuf.put, nl_append] at hn; omega
    refine (ih hn').mono rfl ?_
    rw [nl_lt_toNat hr.count hn', nl_lt_toNat (hr.count.put s) hn]
    simp [OutBuf.put, nl_append]
  | @line o o' n hr h ih =>
    rcases setLine_ok h with ⟨k, -, -, -, rfl⟩ | ⟨last, -, rfl⟩
    · have hn' : nl o.text < 2 ^ 64 := by rw [endls_eq] at hn; simp [nl_append] at hn; omega
      refine (ih hn').mono (by rw [endls_eq]) ?_
      rw [nl_lt_toNat hr.count hn', nl_lt_toNat (hr.count.endls k) hn]
      rw [endls_eq]; simp [nl_append]
    · exact (ih hn).push _ rfl _
  | @fileLine o o' f n hr h ih =>
    rcases setFileLine_ok h with ⟨-, h⟩ | rfl
    · rcases setLine_ok h with ⟨k, -, -, -, rfl⟩ | ⟨last, -, rfl⟩
      · have hn' : nl o.text < 2 ^ 64 := by rw [endls_eq] at hn; simp [nl_append] at hn; omega
        refine (ih hn').mono (by rw [endls_eq]) ?_
        rw [nl_lt_toNat hr.count hn', nl_lt_toNat (hr.count.endls k) hn]
        rw [endls_eq]; simp [nl_append]
      · exact (ih hn).push _ rfl _
    · exact (ih hn).push _ rfl _
  | @append o c hr hc ih1 ih2 =>
    have hsum : nl o.text + nl c.text < 2 ^ 64 := by simpa [OutBuf.append, nl_append] using hn
    have h1 := ih1 (by omega)
    have h2 := ih2 (by omega)
    have e1 := nl_lt_toNat hr.count (by omega)
    have e2 := nl_lt_toNat hc.count (by omega)
    have key : ∀ i ∈ c.map, (i.line + o.outputLine).toNat = i.line.toNat + nl o.text := by
      intro i hi
      have := h2.2 i hi
      rw [BitVec.toNat_add, e1, Nat.mod_eq_of_lt (by omega)]
    refine ⟨?_, ?_⟩
    · simp only [OutBuf.append]
      rw [List.pairwise_append]
      refine ⟨h1.1, ?_, ?_⟩
      · rw [List.pairwise_map]
        refine h2.1.imp_of_mem ?_
        intro a b ha hb hab
        simp only [key a ha, key b hb]; omega
      · intro a ha b hb
        simp at hb
        obtain ⟨i, hi, rfl⟩ := hb
        simp only [key i hi]
        have := h1.2 a ha; omega
    · intro i hi
      have e3 := nl_lt_toNat (hr.count.append hc.count) hn
      rw [e3]
      simp only [OutBuf.append, List.mem_append, List.mem_map] at hi
      simp only [OutBuf.append, nl_append]
      rcases hi with hi | ⟨j, hj, rfl⟩
      · have := h1.2 i hi; omega
      · simp only [key j hj]; have := h2.2 j hj; omega

/-- A history is `Reach`. -/
theorem runEvs_reach {o o' : OutBuf} {evs : List Ev} (hr : Reach o) (h : runEvs o evs = .ok o') : Reach o' := by
  induction evs generalizing o with
  | nil => simp [runEvs] at h; exact h ▸ hr
  | cons e r ih =>
    cases e with
    | text s => exact ih (hr.put s) h
    | line n =>
      simp only [runEvs] at h
      split at h
      · rename_i o1 h1; exact ih (.line n hr h1) h
      · simp at h
    | fileLine f n =>
      simp only [runEvs] at h
      split at h
      · rename_i o1 h1; exact ih (.fileLine f n hr h1) h
      · simp at h

/-- Text only grows. -/
theorem runEvs_nl_le {o o' : OutBuf} {evs : List Ev} (h : runEvs o evs = .ok o') : nl o.text ≤ nl o'.text := by
  have hset : ∀ {o o1 : OutBuf} {n : W}, o.setLine n = .ok o1 → nl o.text ≤ nl o1.text := by
    intro o o1 n h1
    rcases setLine_ok h1 with ⟨k, -, -, -, rfl⟩ | ⟨last, -, rfl⟩
    · rw [endls_eq]; simp [nl_append]
    · exact le_refl _
  induction evs generalizing o with
  | nil => simp [runEvs] at h; rw [h]
  | cons e r ih =>
    cases e with
    | text s => exact le_trans (by simp [OutBuf.put, nl_append]) (ih h)
    | line n =>
      simp only [runEvs] at h
      split at h
      · rename_i o1 h1; exact (hset h1).trans (ih h)
      · simp at h
    | fileLine f n =>
      simp only [runEvs] at h
      split at h
      · rename_i o1 h1
        refine le_trans ?_ (ih h)
        rcases setFileLine_ok h1 with ⟨-, h2⟩ | rfl
        · exact hset h2
        · exact le_refl _
      · simp at h

/-- Position according to the last map entry. -/
def lastPos (o : OutBuf) : Option (Str × W) :=
  o.map.getLast?.map (fun i => (i.file, i.lineOverride + (o.outputLine - i.line)))

theorem lookup_eq_lastPos {o : OutBuf} (h : MapInv o) : lookup o.map o.outputLine = lastPos o := by
  have : o.map.filter (fun i => i.line ≤ o.outputLine) = o.map := by
    rw [List.filter_eq_self]
    intro i hi
    simpa [BitVec.le_def] using h.2 i hi
  simp [lookup, lastPos, this]

/-- The counter agrees with the last map entry. -/
def SyncInv (o : OutBuf) : Prop := o.begin_ = 0 ∧ ∀ p, lastPos o = some p → p.2 = o.inputLine

theorem setLine_sync {o o' : OutBuf} {n : W} (hs : SyncInv o) (h : o.setLine n = .ok o') :
    SyncInv o' ∧ lastPos o' = (lastPos o).map (fun p => (p.1, n)) := by
  rcases setLine_ok h with ⟨k, -, -, hn, rfl⟩ | ⟨last, hl, rfl⟩
  · have hlast : lastPos (o.endls k) = (lastPos o).map (fun p => (p.1, n)) := by
      rw [endls_eq]
      unfold lastPos
      cases hm : o.map.getLast? with
      | none => simp
      | some last =>
        have := hs.2 (last.file, last.lineOverride + (o.outputLine - last.line)) (by simp [lastPos, hm])
        simp only [Option.map_some, Option.some.injEq, Prod.mk.injEq, true_and]
        rw [hn, ← this]
        ring_nf
        bv_omega
    refine ⟨⟨by rw [endls_eq]; exact hs.1, ?_⟩, hlast⟩
    intro p hp
    rw [hlast] at hp
    simp only [Option.map_eq_some_iff] at hp
    obtain ⟨q, -, rfl⟩ := hp
    simp only
    rw [hn, endls_eq]
    simp only [OutBuf.inputLine]
    bv_omega
  · refine ⟨⟨hs.1, ?_⟩, ?_⟩
    · intro p hp
      simp [lastPos] at hp
      subst hp
      simp only [OutBuf.inputLine]
      bv_omega
    · simp [lastPos, hl]

theorem runEvs_sync {o o' : OutBuf} {evs : List Ev} (hs : SyncInv o) (h : runEvs o evs = .ok o') :
    SyncInv o' ∧ lastPos o' = srcPosFrom (lastPos o) evs := by
  induction evs generalizing o with
  | nil => simp [runEvs] at h; subst h; exact ⟨hs, rfl⟩
  | cons e r ih =>
    cases e with
    | text s =>
      have hp : lastPos (o.put s) = (lastPos o).map fun (f, n) => (f, n + BitVec.ofNat 64 (s.count '\n')) := by
        unfold lastPos OutBuf.put
        cases hm : o.map.getLast? with
        | none => simp
        | some last => simp [nl]; bv_omega
      have hs' : SyncInv (o.put s) := by
        refine ⟨hs.1, ?_⟩
        intro p hpp
        rw [hp] at hpp
        simp only [Option.map_eq_some_iff] at hpp
        obtain ⟨q, hq, rfl⟩ := hpp
        have := hs.2 q hq
        simp only [this, OutBuf.inputLine, OutBuf.put, nl]
        bv_omega
      have := ih hs' h
      rw [hp] at this
      exact this
    | line n =>
      simp only [runEvs] at h
      split at h
      · rename_i o1 h1
        obtain ⟨a, b⟩ := setLine_sync hs h1
        have := ih a h
        rw [b] at this
        exact this
      · simp at h
    | fileLine f n =>
      simp only [runEvs] at h
      split at h
      · rename_i o1 h1
        have key : SyncInv o1 ∧ lastPos o1 = some (f, n) := by
          rcases setFileLine_ok h1 with ⟨⟨last, hl, hf⟩, h2⟩ | rfl
          · obtain ⟨a, b⟩ := setLine_sync hs h2
            refine ⟨a, ?_⟩
            rw [b]; simp [lastPos, hl, hf]
          · refine ⟨⟨hs.1, ?_⟩, by simp [lastPos]⟩
            intro p hp
            simp [lastPos] at hp
            subst hp
            have := hs.1
            simp only [OutBuf.inputLine, this]
            bv_omega
        have := ih key.1 h
        rw [key.2] at this
        exact this
      · simp at h

/-- Entries are only ever added at or behind the current output line. -/
theorem runEvs_map_prefix {o o' : OutBuf} {evs : List Ev} (hr : Reach o) (h : runEvs o evs = .ok o')
    (hn : nl o'.text < 2 ^ 64) :
    ∃ more, o'.map = o.map ++ more ∧ ∀ i ∈ more, o.outputLine.toNat ≤ i.line.toNat := by
  have hset : ∀ {o o1 : OutBuf} {n : W}, o.setLine n = .ok o1 → Reach o → nl o1.text < 2 ^ 64 →
      (∃ more, o1.map = o.map ++ more ∧ ∀ i ∈ more, o.outputLine.toNat ≤ i.line.toNat) := by
    intro o o1 n h1 hr hn
    rcases setLine_ok h1 with ⟨k, -, -, -, rfl⟩ | ⟨last, -, rfl⟩
    · exact ⟨[], by rw [endls_eq]; simp, by simp⟩
    · exact ⟨_, rfl, by simp⟩
  have step : ∀ {o o1 o' : OutBuf} {r}, Reach o → Reach o1 → nl o.text ≤ nl o1.text → runEvs o1 r = .ok o' → nl o'.text < 2 ^ 64 →
      (∃ more, o1.map = o.map ++ more ∧ ∀ i ∈ more, o.outputLine.toNat ≤ i.line.toNat) →
      (∃ more, o'.map = o1.map ++ more ∧ ∀ i ∈ more, o1.outputLine.toNat ≤ i.line.toNat) →
      (∃ more, o'.map = o.map ++ more ∧ ∀ i ∈ more, o.outputLine.toNat ≤ i.line.toNat) := by
    rintro o o1 o' r hr hr1 hle hrun hn ⟨m1, e1, h1⟩ ⟨m2, e2, h2⟩
    refine ⟨m1 ++ m2, by rw [e2, e1, List.append_assoc], ?_⟩
    intro i hi
    rw [List.mem_append] at hi
    rcases hi with hi | hi
    · exact h1 i hi
    · have a := nl_lt_toNat hr.count (by have := runEvs_nl_le hrun; omega)
      have b := nl_lt_toNat hr1.count (by have := runEvs_nl_le hrun; omega)
      have := h2 i hi
      omega
  induction evs generalizing o with
  | nil => simp [runEvs] at h; subst h; exact ⟨[], by simp, by simp⟩
  | cons e r ih =>
    cases e with
    | text s =>
      exact step hr (hr.put s) (by simp [OutBuf.put, nl_append]) h hn ⟨[], by simp [OutBuf.put], by simp⟩ (ih (hr.put s) h)
    | line n =>
      have h0 := h
      simp only [runEvs] at h
      split at h
      · rename_i o1 h1
        have hr1 : Reach o1 := .line n hr h1
        have hle : nl o.text ≤ nl o1.text := runEvs_nl_le (evs := [.line n]) (by simp [runEvs, h1])
        exact step hr hr1 hle h hn (hset h1 hr (by have := runEvs_nl_le h; omega)) (ih hr1 h)
      · simp at h
    | fileLine f n =>
      simp only [runEvs] at h
      split at h
      · rename_i o1 h1
        have hr1 : Reach o1 := .fileLine f n hr h1
        have hle : nl o.text ≤ nl o1.text := runEvs_nl_le (evs := [.fileLine f n]) (by simp [runEvs, h1])
        refine step hr hr1 hle h hn ?_ (ih hr1 h)
        rcases setFileLine_ok h1 with ⟨-, h2⟩ | rfl
        · exact hset h2 hr (by have := runEvs_nl_le h; omega)
        · exact ⟨_, rfl, by simp⟩
      · simp at h

end Verif
