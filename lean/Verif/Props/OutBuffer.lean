import Verif.OutBufferLemmas
/-! # Property theorems C03, C04, C05 (line bookkeeping of the preprocessor output) -/
namespace Verif
open Verif.Spec

/-! ## C03 -/

/-- C03: in every reachable buffer (any history, including nested buffers) the line counter is the number of newline
characters written (modulo 2^64 exactly), and as long as fewer than 2^64 newlines were written the line map is sorted
and never points behind the written text. -/
theorem C03_line_counter (o : OutBuf) (h : Reach o) :
    o.outputLine = BitVec.ofNat 64 (o.text.count '\n') ∧
    (o.text.count '\n' < 2 ^ 64 →
      o.outputLine.toNat = o.text.count '\n' ∧
      o.map.Pairwise (fun a b => a.line.toNat ≤ b.line.toNat) ∧
      ∀ i ∈ o.map, i.line.toNat ≤ o.text.count '\n') := by
  refine ⟨h.count, fun hn => ?_⟩
  have e := nl_lt_toNat h.count hn
  obtain ⟨a, b⟩ := h.mapInv hn
  refine ⟨e, a, ?_⟩
  intro i hi
  have := b i hi
  rwa [e] at this

/-- A reachable buffer with an include in it. -/
example : Reach ((((OutBuf.new 0).put (c! "a\nb")).append ((OutBuf.new 0).put (c! "\n\n"))).put (c! "x\n")) :=
  .put _ (.append (.put _ (.new 0)) (.put _ (.new 0)))

/-! ## C04 -/

/-- C04: after any history without `` `include `` the line map, looked up at the current output line, gives exactly the
file and line the history says (the last announced position advanced by the newlines written since). -/
theorem C04_position (evs : List Ev) (o : OutBuf) (h : runEvs (OutBuf.new 0) evs = .ok o)
    (hn : o.text.count '\n' < 2 ^ 64) :
    lookup o.map o.outputLine = srcPos evs := by
  have hr := runEvs_reach (.new 0) h
  have hs : SyncInv (OutBuf.new 0) := ⟨rfl, by simp [lastPos, OutBuf.new]⟩
  obtain ⟨-, h2⟩ := runEvs_sync hs h
  rw [lookup_eq_lastPos (hr.mapInv hn), h2]
  rfl

/-- C04: what was recorded for finished output lines is not changed by anything that is emitted later. -/
theorem C04_stable (evs more : List Ev) (o o' : OutBuf) (h : runEvs (OutBuf.new 0) evs = .ok o)
    (h' : runEvs o more = .ok o') (hn : o'.text.count '\n' < 2 ^ 64) (l : W) (hl : l < o.outputLine) :
    lookup o'.map l = lookup o.map l := by
  obtain ⟨m, hm, hge⟩ := runEvs_map_prefix (runEvs_reach (.new 0) h) h' hn
  have : m.filter (fun i => i.line ≤ l) = [] := by
    rw [List.filter_eq_nil_iff]
    intro i hi
    have := hge i hi
    rw [BitVec.lt_def] at hl
    simp [BitVec.le_def]; omega
  simp [lookup, hm, List.filter_append, this]

/-- C04: the operations of a run that starts by naming the file never hit the undefined `back()` of an empty map. -/
theorem C04_no_ub (b : W) (f : Str) (n : W) (evs : List Ev) :
    ∃ o, runEvs (OutBuf.new b) (.fileLine f n :: evs) = .ok o := by
  have hset : ∀ (o : OutBuf) (n : W), o.map ≠ [] → ∃ o', o.setLine n = .ok o' ∧ o'.map ≠ [] := by
    intro o n hm
    unfold OutBuf.setLine
    simp only
    split
    · exact ⟨_, rfl, by rw [endls_eq]; exact hm⟩
    · obtain ⟨l, hl⟩ : ∃ l, o.map.getLast? = some l := by
        rw [← Option.isSome_iff_exists]; simpa using hm
      rw [hl]; exact ⟨_, rfl, by simp⟩
  have key : ∀ (evs : List Ev) (o : OutBuf), o.map ≠ [] → ∃ o', runEvs o evs = .ok o' := by
    intro evs
    induction evs with
    | nil => intro o _; exact ⟨o, rfl⟩
    | cons e r ih =>
      intro o hm
      cases e with
      | text s => exact ih (o.put s) (by simpa [OutBuf.put] using hm)
      | line n =>
        obtain ⟨o', h1, h2⟩ := hset o n hm
        simp only [runEvs, h1]; exact ih o' h2
      | fileLine f n =>
        unfold runEvs OutBuf.setFileLine
        simp only
        cases hg : o.map.getLast? with
        | none => simp at hg; exact absurd hg hm
        | some last =>
          simp only
          by_cases hf : last.file = f
          · obtain ⟨o', h1, h2⟩ := hset o n hm
            simp only [hf, if_true, h1]; exact ih o' h2
          · simp only [hf, if_false]; exact ih _ (by simp)
  simp only [runEvs, OutBuf.setFileLine, OutBuf.new, List.getLast?_nil]
  exact key evs _ (by simp)

/-- C04: telling the buffer a line number makes it be at that line, from every state (even after wrap-around). -/
theorem C04_set_line (o o' : OutBuf) (n : W) (h : o.setLine n = .ok o') : o'.inputLine = n := by
  rcases setLine_ok h with ⟨k, -, -, hn, rfl⟩ | ⟨last, -, rfl⟩
  · rw [endls_eq, hn]; simp only [OutBuf.inputLine]; bv_omega
  · simp only [OutBuf.inputLine]; bv_omega

/-- C04: synchronising only ever adds between zero and three newlines to the text. -/
theorem C04_set_line_text (o o' : OutBuf) (n : W) (h : o.setLine n = .ok o') :
    ∃ k ≤ 3, o'.text = o.text ++ List.replicate k '\n' := by
  rcases setLine_ok h with ⟨k, -, hk, -, rfl⟩ | ⟨last, -, rfl⟩
  · exact ⟨k, hk, by rw [endls_eq]⟩
  · exact ⟨0, by omega, by simp⟩

/-- A history with a jump forward (3 newlines inserted), a jump of more than 3 lines, a jump back and a `` `line ``. -/
example : ∃ o, runEvs (OutBuf.new 0) [.fileLine (c! "a.v") 0, .text (c! "x\ny"), .line 4, .text (c! "z"), .line 20,
      .text (c! "m\nn"), .line 20, .text (c! "q\n"), .fileLine (c! "b.v") 7, .text (c! "\n")] = .ok o ∧
    lookup o.map o.outputLine = some (c! "b.v", 8) := ⟨_, rfl, by decide +kernel⟩

/-! ## C05 -/

/-- C05 (violated, general form): after `<<` of an included buffer whose last entry names another file, every further
line synchronisation of the including file keeps attributing the text to the *included* file. -/
theorem C05_violated_file_after_include (p c o' : OutBuf) (n : W) (last : MapItem)
    (hc : c.map.getLast? = some last) (h : (p.append c).setLine n = .ok o') :
    ∃ l, o'.map.getLast? = some l ∧ l.file = last.file := by
  have hl : (p.append c).map.getLast? = some ⟨last.line + p.outputLine, last.file, last.lineOverride⟩ := by
    simp [OutBuf.append, List.getLast?_append, hc]
  rcases setLine_ok h with ⟨k, -, -, -, rfl⟩ | ⟨last', hl', rfl⟩
  · rw [endls_eq]; exact ⟨_, hl, rfl⟩
  · rw [hl] at hl'; simp at hl'; subst hl'
    exact ⟨⟨(p.append c).outputLine, last.file, n⟩, by simp, rfl⟩

/-- History of a parent with an include at line 2, the included file is empty, and then text of line 3 of the parent. -/
def c05Witness : Except Exc OutBuf := do
  let c ← (OutBuf.new 0).setFileLine (c! "inc.v") 0
  let p ← (OutBuf.new 0).setFileLine (c! "top.v") 0
  let p ← p.setLine 0
  let p := p.put (c! "a\nb\n")
  let p := p.append c
  let p ← p.setLine 3
  return p.put (c! "x")

/-- C05 (violated, witness): the text `x` of top.v line 3 (0-based) is attributed to inc.v line 1. -/
theorem C05_violated_witness :
    (c05Witness.toOption.bind fun o => lookup o.map o.outputLine) = some (c! "inc.v", 1) := by decide +kernel

/-- C05 (partial): the written text itself is right, the newline counter stays right, and when the synchronisation
behind the include does not fall in the "1 to 3 missing lines" window, the recorded *line number* is the right one.
Missing: the file name (see `C05_violated_file_after_include`) and the line number in that window. -/
theorem C05_partial (p c o' : OutBuf) (n : W) (hp : Reach p) (hc : Reach c)
    (h : (p.append c).setLine n = .ok o')
    (hw : ∀ k : Nat, 0 < k → k ≤ 3 → n ≠ (p.append c).inputLine + BitVec.ofNat 64 k)
    (hn : o'.text.count '\n' < 2 ^ 64) :
    o'.text = p.text ++ c.text ∧ (lookup o'.map o'.outputLine).map Prod.snd = some n := by
  have hr : Reach o' := .line n (.append hp hc) h
  rw [lookup_eq_lastPos (hr.mapInv hn)]
  rcases setLine_ok h with ⟨k, h1, h2, h3, -⟩ | ⟨last, -, rfl⟩
  · exact absurd h3 (hw k h1 h2)
  · simp [lastPos, OutBuf.append]

end Verif
