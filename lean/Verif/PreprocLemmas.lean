import Verif.Preproc
import Verif.Props.StrUtils
import Verif.MacroDefLemmas3
import Verif.OutBufferLemmas
/-!
# Helper lemmas about the preprocessor model: one invariant for everything a run can do
-/
namespace Verif

/-! ## the monad -/

theorem M.bind_def {α β : Type} (m : M α) (f : α → M β) (s : PState) :
    (m >>= f) s = match m s with
      | (.ok a, s') => f a s'
      | (.error e, s') => (.error e, s') := rfl

@[simp] theorem M.pure_apply {α : Type} (a : α) (s : PState) : (Pure.pure a : M α) s = (.ok a, s) := rfl
@[simp] theorem M.lift_apply {α : Type} (x : Except Exc α) (s : PState) : M.lift x s = (x, s) := rfl
@[simp] theorem M.get_apply (s : PState) : M.get s = (.ok s, s) := rfl
@[simp] theorem M.modify_apply (f : PState → PState) (s : PState) : M.modify f s = (.ok (), f s) := rfl
@[simp] theorem M.throw_apply {α : Type} (e : Exc) (s : PState) : (M.throw e : M α) s = (.error e, s) := rfl

theorem M.bind_ok {α β : Type} {m : M α} {f : α → M β} {s s' : PState} {a : α} (h : m s = (.ok a, s')) :
    (m >>= f) s = f a s' := by rw [M.bind_def, h]
theorem M.bind_error {α β : Type} {m : M α} {f : α → M β} {s s' : PState} {e : Exc} (h : m s = (.error e, s')) :
    (m >>= f) s = (.error e, s') := by rw [M.bind_def, h]

theorem M.bind_lift {α β : Type} {x : Except Exc α} {f : α → M β} {s : PState} {a : α} (h : x = .ok a) :
    (M.lift x >>= f) s = f a s := by rw [h]; rfl

/-! ## facts about the parts -/

theorem setLine_cases (o : OutBuf) (n : W) :
    (∃ o', o.setLine n = .ok o' ∧ o'.begin_ = o.begin_ ∧ o.text <+: o'.text ∧ (o.map ≠ [] → o'.map ≠ [])) ∨
    (o.setLine n = .error .ub ∧ o.map = []) := by
  unfold OutBuf.setLine
  simp only
  split
  · left
    refine ⟨_, rfl, ?_⟩
    rename_i hc
    clear hc
    generalize (n - (o.outputLine + o.offset + o.begin_)).toNat = k
    induction k generalizing o with
    | zero => exact ⟨rfl, List.prefix_rfl, id⟩
    | succ k ih =>
      obtain ⟨h1, h2, h3⟩ := ih o.endl
      exact ⟨h1, (List.prefix_append _ _).trans h2, h3⟩
  · split
    · right; rename_i h; exact ⟨rfl, by simpa using h⟩
    · left
      exact ⟨_, rfl, rfl, List.prefix_rfl, by simp⟩

theorem setFileLine_total (o : OutBuf) (f : Str) (n : W) :
    ∃ o', o.setFileLine f n = .ok o' ∧ o'.begin_ = o.begin_ ∧ o.text <+: o'.text ∧ o'.map ≠ [] := by
  unfold OutBuf.setFileLine
  simp only
  split
  · rename_i last hl
    have hm : o.map ≠ [] := by rintro h; simp [h] at hl
    split
    · rcases setLine_cases o n with ⟨o', h1, h2, h3, h4⟩ | ⟨_, h⟩
      · exact ⟨o', h1, h2, h3, h4 hm⟩
      · exact absurd h hm
    · exact ⟨_, rfl, rfl, List.prefix_rfl, by simp⟩
  · exact ⟨_, rfl, rfl, List.prefix_rfl, by simp⟩

theorem removeComment_ok (l : List CommentTok) (s : Str) : ∃ r, removeComment l s = .ok r := by
  induction l generalizing s with
  | nil => exact ⟨s, rfl⟩
  | cons t r ih =>
    obtain ⟨s', h, _⟩ := C24_replace_substring s (t.hd :: t.tl) (if t.isEscape then ['\n'] else []) (by simp)
    obtain ⟨q, hq⟩ := ih s'
    exact ⟨q, by simp [removeComment, h, bind, Except.bind, hq]⟩

theorem defineBody_ok (d : DefineNode) : ∃ r, defineBody d = .ok r := by
  unfold defineBody
  cases d.body with
  | none => exact ⟨[], rfl⟩
  | some p =>
    obtain ⟨r, h⟩ := removeComment_ok p.2 p.1
    exact ⟨rtrim r wsChars, by simp [h, bind, Except.bind, pure, Except.pure]⟩

theorem paste_ok (lang : Nat) (r : Str) : ∃ q, paste lang r = .ok q := by
  unfold paste
  split
  · obtain ⟨s1, h1, _⟩ := C24_replace_substring r (c! "``") [] (by simp)
    obtain ⟨s2, h2, _⟩ := C24_replace_substring s1 (c! "`\\`") (c! "\\") (by simp)
    exact ⟨s2, by simp [h1, bind, Except.bind, h2]⟩
  · exact ⟨r, rfl⟩

theorem unescape_cases (s : Str) : (∃ r, unescapeStringDblquotes s = .ok r) ∨
    unescapeStringDblquotes s = .error (.parse (c! "Unfinished `\" string")) := by
  rw [C22_unescape_dblquotes]
  cases Spec.unescape false false s with
  | none => right; rfl
  | some t => left; exact ⟨t, rfl⟩

theorem rethrow_parse {src : Str} {l c : Nat} {e : Exc} (h : ∃ m, e = .parse m) : ∃ m, rethrow src l c e = .parse m := by
  obtain ⟨m, rfl⟩ := h; exact ⟨_, rfl⟩

theorem new_cases (n : Str) (hp : Bool) (ps : List Param) (b : Str) :
    (∃ m, MacroDef.new n hp ps b = .ok m) ∨ (∃ m, MacroDef.new n hp ps b = .error (.parse m)) := by
  rcases parseBody_total n ps b with ⟨m, h⟩ | ⟨fr, h, _⟩
  · right; exact ⟨m, by simp [MacroDef.new, h, bind, Except.bind]⟩
  · left; exact ⟨_, by simp [MacroDef.new, h, bind, Except.bind, pure, Except.pure]; rfl⟩

theorem joinFrags_err {args : List Str} {fr : List Frag} {e : Exc} (h : joinFrags args fr = .error e) : e = .outOfRange := by
  induction fr with
  | nil => simp [joinFrags] at h
  | cons f fr ih =>
    cases f with
    | lit s =>
      simp only [joinFrags, bind, Except.bind, pure, Except.pure] at h
      cases hj : joinFrags args fr with
      | error e' => rw [hj] at h; simp at h; subst h; exact ih hj
      | ok v => rw [hj] at h; simp at h
    | arg i =>
      simp only [joinFrags] at h
      cases ha : args[i]? with
      | none => rw [ha] at h; simp at h; exact h.symm
      | some a =>
        rw [ha] at h
        simp only [bind, Except.bind, pure, Except.pure] at h
        cases hj : joinFrags args fr with
        | error e' => rw [hj] at h; simp at h; subst h; exact ih hj
        | ok v => rw [hj] at h; simp at h

theorem macroReplace_err {m : MacroDef} {args : List Str} {b : Bool} {e : Exc} (h : m.replace args b = .error e) :
    (∃ msg, e = .parse msg) ∨ e = .outOfRange := by
  unfold MacroDef.replace at h
  split at h
  · simp at h; exact .inl ⟨_, h.symm⟩
  split at h
  · simp at h; exact .inl ⟨_, h.symm⟩
  split at h
  · rename_i hle
    obtain ⟨h1, h2⟩ := completeArgs_spec m.name m.params args hle
    cases hb : Spec.bindArgs m.params args with
    | none =>
      obtain ⟨msg, hm⟩ := h2 hb
      rw [hm] at h
      simp [bind, Except.bind] at h
      exact .inl ⟨_, h.symm⟩
    | some v =>
      rw [h1 v hb] at h
      simp only [bind, Except.bind] at h
      exact .inr (joinFrags_err h)
  · simp at h; exact .inl ⟨_, h.symm⟩

theorem firstReplacement_err {o : MacroObj} {c : Call} {out : OutBuf} {e : Exc} (h : firstReplacement o c out = .error e) :
    (∃ msg, e = .parse msg) ∨ e = .outOfRange ∨ (e = .ub ∧ out.map = []) := by
  unfold firstReplacement at h
  simp only [bind, Except.bind, pure, Except.pure] at h
  split at h
  · rename_i e' he
    simp at h
    subst h
    cases o with
    | user m => rcases macroReplace_err he with h | h <;> simp [h]
    | line =>
      simp only [MacroObj.replace] at he
      split at he
      · simp at he; exact .inl ⟨_, he.symm⟩
      · simp at he
    | file =>
      simp only [MacroObj.replace] at he
      split at he
      · simp at he; exact .inl ⟨_, he.symm⟩
      · split at he
        · rename_i hl; simp at he; exact .inr (.inr ⟨he.symm, by simpa using hl⟩)
        · simp at he
  · simp at h

/-! ## the database -/

namespace MacroDB

theorem insert_persistent (db : MacroDB) (k : Str) (o : MacroObj) :
    (db.insert k ⟨o, false⟩).deleteNonPersistent = db.deleteNonPersistent := by
  unfold insert deleteNonPersistent
  split
  · rfl
  · simp [List.filter_append]

theorem find_some_mem {db : MacroDB} {k : Str} {v : DbItem} (h : db.find k = some v) : (k, v) ∈ db := by
  unfold find at h
  rw [Option.map_eq_some_iff] at h
  obtain ⟨⟨k', v'⟩, h1, rfl⟩ := h
  have := List.find?_some h1
  simp at this
  subst this
  exact List.mem_of_find?_eq_some h1

theorem find_none_iff {db : MacroDB} {k : Str} : db.find k = none ↔ ∀ p ∈ db, p.1 ≠ k := by
  unfold find
  rw [Option.map_eq_none_iff, List.find?_eq_none]
  simp

theorem Uniq.find_of_mem {db : MacroDB} (h : db.Uniq) {k : Str} {v : DbItem} (hm : (k, v) ∈ db) : db.find k = some v := by
  induction db with
  | nil => simp at hm
  | cons p db ih =>
    obtain ⟨k', v'⟩ := p
    unfold Uniq at h ih
    rw [List.map_cons, List.nodup_cons] at h
    rw [List.mem_cons] at hm
    rcases hm with hm | hm
    · simp at hm; obtain ⟨rfl, rfl⟩ := hm; simp [find]
    · have hne : k' ≠ k := by
        rintro rfl
        exact h.1 (List.mem_map.2 ⟨_, hm, rfl⟩)
      have := ih h.2 hm
      unfold find at this ⊢
      rw [List.find?_cons_of_neg (by simpa using hne)]
      exact this

theorem erase_persistent {db : MacroDB} (hu : db.Uniq) {k : Str} {v : DbItem} (h : db.find k = some v) (hp : v.persistent = false) :
    (db.erase k).deleteNonPersistent = db.deleteNonPersistent := by
  unfold erase deleteNonPersistent
  rw [List.filter_filter]
  apply List.filter_congr
  intro p hm
  by_cases hk : p.1 = k
  · obtain ⟨k', v'⟩ := p
    simp at hk; subst hk
    have := hu.find_of_mem hm
    rw [h] at this
    simp at this; subst this
    simp [hp]
  · simp [hk]

theorem Uniq.insert {db : MacroDB} (h : db.Uniq) (k : Str) (v : DbItem) : (db.insert k v).Uniq := by
  unfold MacroDB.insert
  cases hf : db.find k with
  | some _ => simpa using h
  | none =>
    rw [find_none_iff] at hf
    unfold Uniq at h ⊢
    simp only [Option.isSome_none, Bool.false_eq_true, if_false, List.map_append, List.map_cons, List.map_nil]
    rw [List.nodup_append]
    refine ⟨h, by simp, ?_⟩
    intro a ha b hb
    simp at hb; subst hb
    rw [List.mem_map] at ha
    obtain ⟨p, hp, rfl⟩ := ha
    exact hf p hp

theorem Uniq.filter {db : MacroDB} (h : db.Uniq) (f : Str × DbItem → Bool) : Uniq (List.filter f db) := by
  unfold Uniq at h ⊢
  exact h.sublist (List.filter_sublist.map _)

end MacroDB

/-! ## the invariant -/

/-- Distance to the two limits on nesting. -/
def mu (s : PState) : Nat := (includeDepthLimit + 1 - s.incStack.length) + (maxCallStack - s.callStack.length)

/-- What holds of a piece of the run that does not produce an output buffer. -/
structure Res0 (n : Nat) (ctx : Ctx) (mapOk : Prop) (s : PState) {α : Type} (r : Except Exc α × PState) : Prop where
  uniq : s.db.Uniq → r.2.db.Uniq
  persist : s.db.Uniq → r.2.db.deleteNonPersistent = s.db.deleteNonPersistent
  stackEq : ∀ a, r.1 = .ok a → r.2.incdirs = s.incdirs ∧ r.2.incStack = s.incStack ∧ r.2.callStack = s.callStack
  ubMono : s.ub = true → r.2.ub = true
  noUb : mapOk → (ctx.added = true → s.incdirs ≠ []) → ctx.enc ≠ c! "utf-16" → r.1 ≠ .error .ub
  noFuel : mu s < n → r.1 ≠ .error .fuel

/-- What holds of a piece of the run that extends an output buffer. -/
structure Res (n : Nat) (ctx : Ctx) (s : PState) (out : OutBuf) (r : Except Exc OutBuf × PState) : Prop
    extends Res0 n ctx (out.map ≠ []) s r where
  outOk : ∀ o, r.1 = .ok o → o.begin_ = out.begin_ ∧ out.text <+: o.text ∧ (out.map ≠ [] → o.map ≠ [])

theorem Res0.error {n : Nat} {ctx : Ctx} {p : Prop} {s : PState} {α : Type} {e : Exc}
    (h1 : p → e ≠ .ub) (h2 : e ≠ .fuel) : Res0 n ctx p s ((.error e, s) : Except Exc α × PState) :=
  ⟨id, fun _ => rfl, by simp, id, by simpa using fun hp _ _ => h1 hp, by simpa using fun _ => h2⟩

theorem Res.error {n : Nat} {ctx : Ctx} {s : PState} {out : OutBuf} {e : Exc}
    (h1 : out.map ≠ [] → e ≠ .ub) (h2 : e ≠ .fuel) : Res n ctx s out (.error e, s) :=
  ⟨Res0.error h1 h2, by simp⟩

theorem Res.ok {n : Nat} {ctx : Ctx} {s : PState} {out o : OutBuf}
    (h : o.begin_ = out.begin_ ∧ out.text <+: o.text ∧ (out.map ≠ [] → o.map ≠ [])) : Res n ctx s out (.ok o, s) :=
  ⟨⟨id, fun _ => rfl, by simp, id, by simp, by simp⟩, by simpa using h⟩

/-- Sequencing: a piece without buffer, then anything. -/
theorem Res0.bind {n : Nat} {ctx : Ctx} {p : Prop} {s : PState} {α β : Type} {m : M α} {f : α → M β}
    (h1 : Res0 n ctx p s (m s)) (h2 : ∀ a s1, m s = (.ok a, s1) → Res0 n ctx p s1 (f a s1)) : Res0 n ctx p s ((m >>= f) s) := by
  rw [M.bind_def]
  rcases hm : m s with ⟨_ | a, s1⟩
  · rw [hm] at h1
    exact ⟨h1.uniq, h1.persist, by simp, h1.ubMono, by simpa using h1.noUb, by simpa using h1.noFuel⟩
  · rw [hm] at h1
    have h3 := h2 a s1 hm
    have hst := h1.stackEq a rfl
    simp only at hst h3 ⊢
    have hmu : mu s1 = mu s := by simp [mu, hst.2.1, hst.2.2]
    refine ⟨fun hu => h3.uniq (h1.uniq hu), fun hu => (h3.persist (h1.uniq hu)).trans (h1.persist hu), ?_,
      fun hub => h3.ubMono (h1.ubMono hub), ?_, ?_⟩
    · intro b hb
      have := h3.stackEq b hb
      rw [hst.1, hst.2.1, hst.2.2] at this
      exact this
    · intro hp ha he
      exact h3.noUb hp (by rw [hst.1]; exact ha) he
    · intro hn; exact h3.noFuel (by rw [hmu]; exact hn)

/-- Sequencing of two pieces with buffers. -/
theorem Res.bind {n : Nat} {ctx : Ctx} {s : PState} {out : OutBuf} {m : M OutBuf} {f : OutBuf → M OutBuf}
    (h1 : Res n ctx s out (m s)) (h2 : ∀ a s1, m s = (.ok a, s1) → Res n ctx s1 a (f a s1)) : Res n ctx s out ((m >>= f) s) := by
  rcases hm : m s with ⟨_ | a, s1⟩
  · rw [M.bind_error hm]
    rw [hm] at h1
    exact ⟨⟨h1.uniq, h1.persist, by simp, h1.ubMono, by simpa using h1.noUb, by simpa using h1.noFuel⟩, by simp⟩
  · have h3 := h2 a s1 hm
    rw [M.bind_ok hm]
    rw [hm] at h1
    obtain ⟨b1, b2, b3⟩ := h1.outOk a rfl
    have hst := h1.stackEq a rfl
    simp only at hst
    have hmu : mu s1 = mu s := by simp [mu, hst.2.1, hst.2.2]
    refine ⟨⟨fun hu => h3.uniq (h1.uniq hu), fun hu => (h3.persist (h1.uniq hu)).trans (h1.persist hu), ?_,
      fun hub => h3.ubMono (h1.ubMono hub), ?_, ?_⟩, ?_⟩
    · intro b hb
      have := h3.stackEq b hb
      rw [hst.1, hst.2.1, hst.2.2] at this
      exact this
    · intro hp ha he
      exact h3.noUb (b3 hp) (by rw [hst.1]; exact ha) he
    · intro hn; exact h3.noFuel (by rw [hmu]; exact hn)
    · intro o ho
      obtain ⟨c1, c2, c3⟩ := h3.outOk o ho
      exact ⟨c1.trans b1, b2.trans c2, fun hm => c3 (b3 hm)⟩

/-- A piece without buffer, then a piece with buffer. -/
theorem Res.bind0 {n : Nat} {ctx : Ctx} {s : PState} {out : OutBuf} {α : Type} {m : M α} {f : α → M OutBuf}
    (h1 : Res0 n ctx (out.map ≠ []) s (m s)) (h2 : ∀ a s1, m s = (.ok a, s1) → Res n ctx s1 out (f a s1)) :
    Res n ctx s out ((m >>= f) s) := by
  refine ⟨Res0.bind h1 (fun a s1 h => (h2 a s1 h).toRes0), ?_⟩
  rcases hm : m s with ⟨_ | a, s1⟩
  · rw [M.bind_error hm]; simp
  · rw [M.bind_ok hm]
    exact (h2 a s1 hm).outOk

theorem Res0.pure {n : Nat} {ctx : Ctx} {p : Prop} {s : PState} {α : Type} (a : α) : Res0 n ctx p s ((.ok a, s) : Except Exc α × PState) :=
  ⟨id, fun _ => rfl, by simp, id, by simp, by simp⟩

theorem Res.setLine {n : Nat} {ctx : Ctx} {s : PState} (out : OutBuf) (l : W) :
    Res n ctx s out ((M.lift (out.setLine l)) s) := by
  rcases setLine_cases out l with ⟨o', h1, h2⟩ | ⟨h1, h2⟩
  · rw [M.lift_apply, h1]; exact Res.ok h2
  · rw [M.lift_apply, h1]; exact Res.error (fun h => absurd h2 h) (by simp)

/-- The hypothesis on the recursive call. -/
def RecOk (n : Nat) (rec : Rec) : Prop := ∀ ctx text out s, Res n ctx s out (rec ctx text out s)

theorem toUtf8_err {s enc : Str} {e : Exc} (h : toUtf8 s enc = .error e) : (e = .ub ∧ enc = c! "utf-16") ∨ ∃ m, e = .runtime m := by
  unfold toUtf8 at h
  split at h
  · simp at h
  split at h
  · rename_i h2; simp at h; exact .inl ⟨h.symm, h2⟩
  split at h
  · simp at h
  · simp at h; exact .inr ⟨_, h.symm⟩

theorem toUtf8_errOk {n : Nat} {ctx ctx' : Ctx} {s : PState} {out : OutBuf} {t : Str} {e : Exc} (h : toUtf8 t ctx.enc = .error e) :
    Res0 n ⟨ctx'.src, ctx'.added, ctx.enc⟩ (out.map ≠ []) s ((.error e, s) : Except Exc OutBuf × PState) := by
  refine ⟨id, fun _ => rfl, by simp, id, ?_, ?_⟩
  · intro _ _ he hu
    simp at hu; subst hu
    rcases toUtf8_err h with ⟨_, h⟩ | ⟨m, h⟩
    · exact he h
    · simp at h
  · intro _ hu
    simp at hu; subst hu
    rcases toUtf8_err h with ⟨h, _⟩ | ⟨m, h⟩ <;> simp at h

/-- The name a text gets as its source. -/
def srcName (s : PState) : Str := s.incStack.getLast?.getD (c! "<string>")

theorem runStr_res {n : Nat} {rec : Rec} (hrec : RecOk n rec) (text enc : Str) (out : OutBuf) (s : PState) :
    Res n ⟨srcName s, false, enc⟩ s out (runStr rec text enc out s) ∧
    (enc ≠ c! "utf-16" → (runStr rec text enc out s).1 ≠ .error .ub) ∧
    ∀ o, (runStr rec text enc out s).1 = .ok o → o.map ≠ [] := by
  unfold runStr
  rw [M.bind_ok (M.get_apply s)]
  obtain ⟨o1, h1, h2, h3, h4⟩ := setFileLine_total out (s.incStack.getLast?.getD (c! "<string>")) 0
  rw [M.bind_ok (show M.lift _ s = _ from by rw [M.lift_apply, h1])]
  have key : ∀ r : Except Exc OutBuf × PState, Res n ⟨srcName s, false, enc⟩ s o1 r →
      Res n ⟨srcName s, false, enc⟩ s out r ∧ (enc ≠ c! "utf-16" → r.1 ≠ .error .ub) ∧
      ∀ o, r.1 = .ok o → o.map ≠ [] := by
    intro r hr
    refine ⟨⟨⟨hr.uniq, hr.persist, hr.stackEq, hr.ubMono, fun _ _ he => hr.noUb h4 (by simp) he, hr.noFuel⟩, ?_⟩,
      fun he => hr.noUb h4 (by simp) he, fun o ho => (hr.outOk o ho).2.2 h4⟩
    intro o ho
    obtain ⟨c1, c2, c3⟩ := hr.outOk o ho
    exact ⟨c1.trans h2, h3.trans c2, fun _ => c3 h4⟩
  cases hu : toUtf8 text enc with
  | error e =>
    rw [M.bind_error (show M.lift _ s = _ from by rw [M.lift_apply])]
    exact key _ ⟨toUtf8_errOk (ctx := ⟨[], false, enc⟩) (ctx' := ⟨srcName s, false, enc⟩) hu, by simp⟩
  | ok t =>
    rw [M.bind_ok (show M.lift _ s = _ from by rw [M.lift_apply])]
    exact key _ (hrec _ _ _ _)

/-- Result of `runFile` for a state whose include stack has room: -/
theorem runFile_res {n : Nat} {rec : Rec} (env : Env) (hrec : RecOk n rec) (path enc : Str) (out : OutBuf) (s : PState)
    (hd : s.incStack.length ≤ includeDepthLimit) :
    Res (n + 1) ⟨path, false, enc⟩ s out (runFile env rec path enc out s) ∧
    (enc ≠ c! "utf-16" → (runFile env rec path enc out s).1 ≠ .error .ub) ∧
    ∀ o, (runFile env rec path enc out s).1 = .ok o → o.map ≠ [] := by
  unfold runFile
  rw [M.bind_ok (M.get_apply s)]
  generalize hadd : (!(s.incdirs.contains (env.parent path))) = add
  unfold runFileIn
  rw [M.bind_ok (M.modify_apply _ s)]
  set s1 : PState := { s with
    incdirs := if add then s.incdirs ++ [env.parent path] else s.incdirs
    incStack := s.incStack ++ [path] } with hs1
  have hmu : mu s1 < mu s := by
    simp [mu, hs1, includeDepthLimit] at hd ⊢; omega
  have errCase : ∀ (r : Exc), r ≠ .fuel → (r = .ub → enc = c! "utf-16") →
      Res (n + 1) ⟨path, false, enc⟩ s out (.error r, s1) ∧
      (enc ≠ c! "utf-16" → (Except.error r : Except Exc OutBuf) ≠ .error .ub) ∧
      ∀ o, (Except.error r : Except Exc OutBuf) = .ok o → o.map ≠ [] := by
    intro r h1 h2
    refine ⟨⟨⟨id, fun _ => rfl, by simp, id, ?_, by simpa using fun _ => h1⟩, by simp⟩, ?_, by simp⟩
    · intro _ _ he h; simp at h; exact he (h2 h)
    · intro he h; simp at h; exact he (h2 h)
  cases hf : env.readFile path with
  | error m =>
    rw [M.bind_error (show M.lift _ s1 = (.error (.runtime m), s1) from by rw [M.lift_apply]; rfl)]
    exact errCase _ (by simp) (by simp)
  | ok bytes =>
  rw [M.bind_ok (show M.lift _ s1 = (.ok bytes, s1) from by rw [M.lift_apply]; rfl)]
  cases hu : toUtf8 bytes enc with
  | error e =>
    rw [M.bind_error (show M.lift _ s1 = _ from by rw [M.lift_apply])]
    rcases toUtf8_err hu with ⟨h, h'⟩ | ⟨m, h⟩
    · subst h; exact errCase _ (by simp) (fun _ => h')
    · subst h; exact errCase _ (by simp) (by simp)
  | ok t =>
  rw [M.bind_ok (show M.lift _ s1 = _ from by rw [M.lift_apply])]
  obtain ⟨o1, h1, h2, h3, h4⟩ := setFileLine_total out path 0
  rw [M.bind_ok (show M.lift _ s1 = _ from by rw [M.lift_apply, h1])]
  have hr := hrec ⟨path, add, enc⟩ t o1 s1
  have hinc : add = true → s1.incdirs ≠ [] := by intro h; simp [hs1, h]
  rcases hx : rec ⟨path, add, enc⟩ t o1 s1 with ⟨e | o, s2⟩
  · rw [M.bind_error hx]
    rw [hx] at hr
    refine ⟨⟨⟨hr.uniq, hr.persist, by simp, hr.ubMono, ?_, ?_⟩, by simp⟩, ?_, by simp⟩
    · intro _ _ he; simpa using hr.noUb h4 hinc he
    · intro hn; simpa using hr.noFuel (by omega)
    · intro he; simpa using hr.noUb h4 hinc he
  · rw [M.bind_ok hx, M.bind_ok (M.modify_apply _ s2)]
    rw [hx] at hr
    obtain ⟨c1, c2, c3⟩ := hr.outOk o rfl
    obtain ⟨d1, d2, d3⟩ := hr.stackEq o rfl
    simp only at d1 d2 d3
    refine ⟨⟨⟨hr.uniq, hr.persist, ?_, hr.ubMono, by simp, by simp⟩, ?_⟩, by simp, ?_⟩
    · intro _ _
      simp only [d1, d2, d3]
      cases add <;> simp [hs1]
    · intro o' ho'
      simp at ho'; subst ho'
      exact ⟨c1.trans h2, h3.trans c2, fun _ => c3 h4⟩
    · intro o' ho'
      simp at ho'; subst ho'
      exact c3 h4

theorem rescan_res {n : Nat} {rec : Rec} (hrec : RecOk n rec) (ctx : Ctx) (c : Call) (b : W) (r : Str) (p : Prop) (s : PState) :
    Res0 (n + 1) ctx p s (rescan rec ctx c b r s) := by
  unfold rescan
  split
  · rw [M.bind_ok (M.get_apply s)]
    split
    · exact Res0.error (by simp [inputError]) (by simp [inputError])
    · rename_i hcs
      rw [M.bind_ok (M.modify_apply _ s)]
      set s1 : PState := { s with callStack := s.callStack ++ [c.name] } with hs1
      have hmu : mu s1 < mu s := by simp [mu, hs1, maxCallStack] at hcs ⊢; omega
      obtain ⟨k1, k2, k3⟩ := runStr_res hrec r (c! "utf-8") (OutBuf.new (b + line0 c.line)) s1
      rcases hx : runStr rec r (c! "utf-8") (OutBuf.new (b + line0 c.line)) s1 with ⟨e | o, s2⟩
      · rw [M.bind_error hx]
        rw [hx] at k1 k2
        refine ⟨k1.uniq, k1.persist, by simp, k1.ubMono, ?_, ?_⟩
        · intro _ _ _; simpa using k2 (by decide)
        · intro hn; simpa using k1.noFuel (by omega)
      · rw [M.bind_ok hx, M.bind_ok (M.modify_apply _ s2)]
        rw [hx] at k1
        obtain ⟨d1, d2, d3⟩ := k1.stackEq o rfl
        simp only at d1 d2 d3
        refine ⟨k1.uniq, k1.persist, ?_, k1.ubMono, by simp, by simp⟩
        intro _ _
        simp [d1, d2, d3, hs1]
  · exact Res0.pure _

theorem expandCall_res {n : Nat} {rec : Rec} (env : Env) (hrec : RecOk n rec) (ctx : Ctx) (c : Call) (out : OutBuf) (s : PState) :
    Res0 (n + 1) ctx (out.map ≠ []) s (expandCall env rec ctx c out s) := by
  unfold expandCall
  rw [M.bind_ok (M.get_apply s)]
  cases hf : s.db.find c.name with
  | none => exact Res0.error (by simp [inputError]) (by simp [inputError])
  | some item =>
  simp only
  cases hr : firstReplacement item.obj c out with
  | error e =>
    simp only
    apply Res0.error
    · intro hm
      rcases firstReplacement_err hr with ⟨m, rfl⟩ | rfl | ⟨rfl, h⟩ <;> simp [rethrow, inputError]
      exact hm h
    · rcases firstReplacement_err hr with ⟨m, rfl⟩ | rfl | ⟨rfl, h⟩ <;> simp [rethrow, inputError]
  | ok r0 =>
  simp only
  obtain ⟨r, hp⟩ := paste_ok env.lang r0
  rw [M.bind_ok (show M.lift _ s = _ from by rw [M.lift_apply, hp])]
  apply Res0.bind (rescan_res hrec ctx c _ r _ s)
  intro a s1 _
  unfold unescape
  rw [M.lift_apply]
  split
  · rcases unescape_cases a with ⟨q, h⟩ | h <;> rw [h]
    · exact Res0.pure _
    · exact Res0.error (by simp) (by simp)
  · exact Res0.pure _

theorem searchInc_err {env : Env} {q : Str} {l : List Str} {e : Exc} (h : searchInc env q l = .error e) : e = .outOfRange := by
  induction l with
  | nil => simp [searchInc] at h
  | cons d r ih =>
    simp only [searchInc, bind, Except.bind, pure, Except.pure] at h
    unfold stripQuotes at h
    split at h
    · rename_i h'
      split at h'
      · simp at h h'; rw [← h, ← h']
      · split at h' <;> simp at h'
    · split at h
      · simp at h
      · exact ih h

theorem append_map_ne {o p : OutBuf} (h : o.map ≠ []) : (o.append p).map ≠ [] := by simp [OutBuf.append, h]

theorem runInclude_res {n : Nat} {rec : Rec} (env : Env) (hrec : RecOk n rec) (ctx : Ctx) (file : Str) (out : OutBuf) (s : PState)
    (hd : s.incStack.length ≤ includeDepthLimit) :
    Res (n + 1) ctx s out (runInclude env rec ctx file out s) := by
  unfold runInclude
  rw [M.bind_ok (M.get_apply s)]
  split
  · rename_i hadd
    cases hl : s.incdirs.getLast? with
    | none =>
      have he : s.incdirs = [] := by simpa using hl
      refine ⟨⟨id, fun _ => rfl, by simp, id, ?_, by simp⟩, by simp⟩
      intro _ h; exact absurd he (h hadd)
    | some my =>
      simp only
      rw [M.bind_ok (M.modify_apply _ s)]
      set s1 : PState := { s with incdirs := s.incdirs.dropLast } with hs1
      obtain ⟨k1, k2, k3⟩ := runFile_res env hrec file ctx.enc (OutBuf.new 0) s1 hd
      rcases hx : runFile env rec file ctx.enc (OutBuf.new 0) s1 with ⟨e | o, s2⟩
      · rw [M.bind_error hx]
        rw [hx] at k1 k2
        refine ⟨⟨k1.uniq, k1.persist, by simp, k1.ubMono, ?_, ?_⟩, by simp⟩
        · intro _ _ he; simpa using k2 he
        · intro hn; simpa using k1.noFuel hn
      · rw [M.bind_ok hx, M.bind_ok (M.modify_apply _ s2)]
        rw [hx] at k1
        obtain ⟨d1, d2, d3⟩ := k1.stackEq o rfl
        simp only at d1 d2 d3
        refine ⟨⟨k1.uniq, k1.persist, ?_, k1.ubMono, by simp, by simp⟩, ?_⟩
        · intro _ _
          simp only [d1, d2, d3, hs1]
          refine ⟨?_, rfl, rfl⟩
          obtain ⟨l, hl'⟩ := List.getLast?_eq_some_iff.1 hl
          simp [hl']
        · intro o' ho'
          simp at ho'; subst ho'
          exact ⟨rfl, List.prefix_append _ _, append_map_ne⟩
  · obtain ⟨k1, k2, k3⟩ := runFile_res env hrec file ctx.enc (OutBuf.new 0) s hd
    rcases hx : runFile env rec file ctx.enc (OutBuf.new 0) s with ⟨e | o, s2⟩
    · rw [M.bind_error hx]
      rw [hx] at k1 k2
      refine ⟨⟨k1.uniq, k1.persist, by simp, k1.ubMono, ?_, ?_⟩, by simp⟩
      · intro _ _ he; simpa using k2 he
      · intro hn; simpa using k1.noFuel hn
    · rw [M.bind_ok hx]
      rw [hx] at k1
      refine ⟨⟨k1.uniq, k1.persist, ?_, k1.ubMono, by simp, by simp⟩, ?_⟩
      · intro _ _; exact k1.stackEq o rfl
      · intro o' ho'
        simp at ho'; subst ho'
        exact ⟨rfl, List.prefix_append _ _, append_map_ne⟩

theorem visitInclude_res {n : Nat} {rec : Rec} (env : Env) (hrec : RecOk n rec) (ctx : Ctx) (line col : Nat) (a : IncArg)
    (out : OutBuf) (s : PState) : Res (n + 1) ctx s out (visitInclude env rec ctx line col a out s) := by
  unfold visitInclude
  apply Res.bind0
  · cases a with
    | str q => exact Res0.pure _
    | call c => exact expandCall_res env hrec ctx c out s
  · intro quoted s1 _
    rw [M.bind_ok (M.get_apply s1)]
    cases hs : searchInc env quoted s1.incdirs with
    | error e =>
      rw [M.bind_error (show M.lift _ s1 = _ from by rw [M.lift_apply])]
      rw [searchInc_err hs]
      exact Res.error (by simp) (by simp)
    | ok f =>
      rw [M.bind_ok (show M.lift _ s1 = _ from by rw [M.lift_apply])]
      cases f with
      | none => exact Res.error (by simp [inputError]) (by simp [inputError])
      | some file =>
        simp only
        split
        · exact Res.error (by simp [inputError]) (by simp [inputError])
        · exact runInclude_res env hrec ctx file out s1 (by omega)

theorem visitDefine_res {n : Nat} (ctx : Ctx) (d : DefineNode) (p : Prop) (s : PState) :
    Res0 n ctx p s (visitDefine ctx d s) := by
  unfold visitDefine
  obtain ⟨b, hb⟩ := defineBody_ok d
  rw [M.bind_ok (show M.lift _ s = _ from by rw [M.lift_apply, hb])]
  rcases new_cases d.name d.params.isSome (d.params.getD []) b with ⟨m, h⟩ | ⟨m, h⟩ <;> rw [h]
  · simp only [M.modify_apply]
    exact ⟨fun hu => hu.insert _ _, fun _ => MacroDB.insert_persistent _ _ _, by simp, id, by simp, by simp⟩
  · exact Res0.error (by simp [rethrow, inputError]) (by simp [rethrow, inputError])

theorem visitUndef_res {n : Nat} (ctx : Ctx) (name : Str) (p : Prop) (s : PState) :
    Res0 n ctx p s (visitUndef name s) := by
  unfold visitUndef
  rw [M.modify_apply]
  cases hf : s.db.find name with
  | none => exact Res0.pure _
  | some it =>
    simp only
    cases hp : it.persistent with
    | true => exact Res0.pure _
    | false =>
      exact ⟨fun hu => hu.filter _, fun hu => MacroDB.erase_persistent hu hf hp, by simp, by simp, by simp, by simp⟩

theorem Res.put {n : Nat} {ctx : Ctx} {s : PState} {out o : OutBuf} {t : Str}
    (h : Res n ctx s out (.ok o, s)) : Res n ctx s out (.ok (o.put t), s) := by
  obtain ⟨h1, h2, h3⟩ := h.outOk o rfl
  exact Res.ok ⟨h1, h2.trans (List.prefix_append _ _), h3⟩

theorem Res.okSelf {n : Nat} {ctx : Ctx} {s : PState} {out : OutBuf} : Res n ctx s out (.ok out, s) :=
  Res.ok ⟨rfl, List.prefix_rfl, id⟩

theorem setLine_put_res {n : Nat} {ctx : Ctx} (l : W) (t : Str) (out : OutBuf) (s : PState) :
    Res n ctx s out ((do let o ← M.lift (out.setLine l); return o.put t : M OutBuf) s) := by
  refine Res.bind (Res.setLine out l) ?_
  intro a s1 _
  exact Res.ok ⟨rfl, List.prefix_append _ _, id⟩

mutual
theorem visitNode_res {n : Nat} {rec : Rec} (env : Env) (hrec : RecOk n rec) (ctx : Ctx) (nd : Node) (out : OutBuf) (s : PState) :
    Res (n + 1) ctx s out (visitNode env rec ctx nd out s) := by
  cases nd with
  | code line t => rw [visitNode]; exact setLine_put_res _ _ _ _
  | define d =>
    rw [visitNode]
    exact Res.bind0 (visitDefine_res ctx d _ s) (fun _ _ _ => Res.okSelf)
  | cond neg b => rw [visitNode]; exact visitBranches_res env hrec ctx neg b out s
  | call c =>
    rw [visitNode]
    exact Res.bind0 (expandCall_res env hrec ctx c out s) (fun _ _ _ => setLine_put_res _ _ _ _)
  | undef name =>
    rw [visitNode]
    exact Res.bind0 (visitUndef_res ctx name _ s) (fun _ _ _ => Res.okSelf)
  | undefineall =>
    rw [visitNode]
    refine Res.bind0 ?_ (fun _ _ _ => Res.okSelf)
    rw [M.modify_apply]
    exact ⟨fun hu => hu.filter _, fun _ => by simp [MacroDB.deleteNonPersistent, List.filter_filter], by simp, id, by simp, by simp⟩
  | incl line col a => rw [visitNode]; exact visitInclude_res env hrec ctx line col a out s
  | lineDir num file =>
    rw [visitNode, M.lift_apply]
    obtain ⟨o1, h1, h2, h3, h4⟩ := setFileLine_total out file (numValue num)
    rw [h1]
    exact Res.ok ⟨h2, h3, fun _ => h4⟩
  | nop => rw [visitNode]; exact Res.okSelf
termination_by sizeOf nd

theorem visitNodes_res {n : Nat} {rec : Rec} (env : Env) (hrec : RecOk n rec) (ctx : Ctx) (ns : Nodes) (out : OutBuf) (s : PState) :
    Res (n + 1) ctx s out (visitNodes env rec ctx ns out s) := by
  cases ns with
  | nil => rw [visitNodes]; exact Res.okSelf
  | cons nd r =>
    rw [visitNodes]
    exact Res.bind (visitNode_res env hrec ctx nd out s) (fun o s1 _ => visitNodes_res env hrec ctx r o s1)
termination_by sizeOf ns

theorem visitBranches_res {n : Nat} {rec : Rec} (env : Env) (hrec : RecOk n rec) (ctx : Ctx) (neg : Bool) (b : Branches)
    (out : OutBuf) (s : PState) : Res (n + 1) ctx s out (visitBranches env rec ctx neg b out s) := by
  cases b with
  | endif => rw [visitBranches]; exact Res.okSelf
  | els line g =>
    rw [visitBranches]
    exact Res.bind (Res.setLine out _) (fun o s1 _ => visitNodes_res env hrec ctx g o s1)
  | elif cond line g r =>
    rw [visitBranches, M.bind_ok (M.get_apply s)]
    split
    · exact Res.bind (Res.setLine out _) (fun o s1 _ => visitNodes_res env hrec ctx g o s1)
    · exact visitBranches_res env hrec ctx neg r out s
termination_by sizeOf b
end

theorem run_res (env : Env) (n : Nat) : RecOk n (run env n) := by
  induction n with
  | zero =>
    intro ctx text out s
    exact ⟨⟨id, fun _ => rfl, by simp [run], id, by simp [run], by simp⟩, by simp [run]⟩
  | succ n ih =>
    intro ctx text out s
    rw [run]
    cases env.parse text with
    | badInput m => exact Res.error (by simp) (by simp)
    | syntaxErrors e r => exact Res.error (by simp) (by simp)
    | tree t =>
      simp only
      split
      · exact visitNodes_res env ih ctx t out s
      · exact Res.error (by simp) (by simp)

theorem mu_init (env : Env) (db : MacroDB) (incdirs : List Str) : mu (initState env db incdirs) < FUEL := by
  simp [mu, initState, FUEL, maxCallStack, includeDepthLimit]

end Verif
