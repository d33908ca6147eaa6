import Verif.VhdlFront
import Verif.VhdlNull
import Verif.Props.VhdlDesign
import Verif.Props.Convertor
import Verif.Props.ToPyObj
/-!
# Properties of the whole way of VHDL files through the Python interface (C123)
-/
namespace Verif.Vhdl
open Verif.Antlr Verif.Spec Verif.Spec.Lrm

/-- A file: its name, its text, the lexical elements and the library units of the text. -/
structure VFile where
  name : Str
  text : Str
  elems : List (VT × Str)
  units : List LDesign

/-- The text is a VHDL design file, of the supported fragment. -/
structure VFile.Good (f : VFile) : Prop where
  divided : Divided .supported none f.text f.elems
  toks : fileToks f.units (f.elems.map tokenOf)
  reg : ∀ u ∈ f.units, LLib.Reg u.unit
  ok : ∀ u ∈ f.units, LDesign.Ok u

/-- The objects are those the LRM speaks of. -/
def Means (os : List Obj) (l : List LDesign) : Prop :=
  ∀ {V S : Type} (A : Alg V) (B : SAlg V S) (leaf : Expr → V), Agrees A leaf → SAgrees B leaf → (∀ f l, A.call f l = A.index f l) →
    astTops A B leaf os = some (fileEval A B l)

theorem good_tree {f : VFile} (h : f.Good) : ∃ t os, treeOf f.text = some t ∧ visitDesignFile false t = .ok os ∧ Means os f.units ∧
    ∀ u ∈ t, ¬ nullLibUnit u.unit := by
  have hl := C105_elements_partial f.text _ h.divided
  obtain ⟨t, m, e⟩ := parse_file (A := Term.alg1) (fun _ _ => rfl) h.toks h.reg
  have hk := (designs_eq m).2 h.ok
  obtain ⟨os, h1, -⟩ := C89_file_meaning_partial Term.alg1 STerm.alg Term.tok Term.agrees1 STerm.agrees t hk
  refine ⟨t, os, by rw [treeOf, hl]; exact e, h1, fun A B leaf hA hB hc => ?_, fun u hu => ok_not_null_unit (hk u hu).2⟩
  obtain ⟨t', os', e', h1', h2'⟩ := C121_file_meaning_partial A B leaf hA hB hc _ _ h.toks h.reg h.ok
  rw [e] at e'
  cases e'
  rw [h1] at h1'
  cases h1'
  exact h2'

theorem Means.append {os os' : List Obj} {l l' : List LDesign} (h : Means os l) (h' : Means os' l') : Means (os ++ os') (l ++ l') := by
  intro V S A B leaf hA hB hc
  have key : ∀ (a b : List Obj) (x y : List S), astTops A B leaf a = some x → astTops A B leaf b = some y → astTops A B leaf (a ++ b) = some (x ++ y) := by
    intro a
    induction a with
    | nil => intro b x y h1 h2; simp only [astTops] at h1; cases h1; exact h2
    | cons o a ih =>
      intro b x y h1 h2
      simp only [astTops, List.cons_append] at h1 ⊢
      cases ho : astTop A B leaf o with
      | none => rw [ho] at h1; cases h1
      | some v =>
        cases ha : astTops A B leaf a with
        | none => rw [ho, ha] at h1; cases h1
        | some w =>
          rw [ho, ha] at h1
          cases h1
          rw [ih b w y ha h2]
          rfl
  rw [key _ _ _ _ (h A B leaf hA hB hc) (h' A B leaf hA hB hc)]
  simp only [fileEval, List.flatMap_append]

/-- The text `strEncode s` is decoded to `s`. -/
theorem front_parse (x : Unknown) {s : Str} {t : List DesignUnit} (h : treeOf s = some t) : (frontEnd x).parse (strEncode s) = .done [] t := by
  simp only [frontEnd, decode_strEncode, List.map_map]
  rw [show (Char.ofNat ∘ Char.toNat) = id from funext Char.ofNat_toNat, List.map_id, h]

theorem front_text (x : Unknown) {f : VFile} (h : f.Good) : ∃ os, Means os f.units ∧ wfs os ∧ ∀ name c,
    parseText (frontEnd x) Logger.new name (strEncode f.text) false c = (.ok (), c ++ os) := by
  obtain ⟨t, os, h1, h2, h3, h4⟩ := good_tree h
  refine ⟨os, h3, designFile_wf false t h4 os h2, fun name c => ?_⟩
  simp only [parseText, front_parse x h1, List.foldl_nil]
  simp [Logger.new, Logger.checkErrors, frontEnd, h2]

/-- The files are there and their bytes are the texts in UTF-8. -/
def Present (env : Verif.Env) (f : VFile) : Prop :=
  env.fileExists (strEncode f.name) = true ∧ env.readFile (strEncode f.name) = .ok (strEncode f.text)

theorem front_files (env : Verif.Env) (hl : env.lang = 0) (x : Unknown) (U : List Str) : ∀ (fs : List VFile), (∀ f ∈ fs, f.Good ∧ Present env f) →
    ∃ os, Means os (fs.flatMap VFile.units) ∧ wfs os ∧ ∀ a : Api (List Obj),
      parseFiles env (frontEnd x) U (c! "utf-8") false (fs.map (strEncode ·.name)) a = (.ok (), { a with ctx := a.ctx ++ os })
  | [], _ => ⟨[], fun A B leaf _ _ _ => by simp [astTops, fileEval], by simp [wfs], fun a => by simp [parseFiles]⟩
  | f :: fs, h => by
    obtain ⟨os, h1, h2, h3⟩ := front_text x (h f (.head _)).1
    obtain ⟨os', h1', h2', h3'⟩ := front_files env hl x U fs fun g hg => h g (.tail _ hg)
    obtain ⟨e1, e2⟩ := (h f (.head _)).2
    refine ⟨os ++ os', h1.append h1', wfs_append h2 h2', fun a => ?_⟩
    have hf : Verif.parseFile env (frontEnd x) U (c! "utf-8") false (strEncode f.name) a = (.ok (), { a with ctx := a.ctx ++ os }) := by
      simp [Verif.parseFile, e1, e2, hl, toUtf8, Except.mapError, h3]
    simp only [List.map_cons, parseFiles, hf, h3', List.append_assoc]

/-- What Python gets of the objects. -/
theorem front_python {os : List Obj} (hw : wfs os) (dec : Str → Option Str) (enc : Str → Str) (henc : ∀ s t, dec s = some t → enc t = s)
    (ht : ∀ s ∈ fileTexts os, ∃ t, dec (cut s) = some t) :
    ∃ ps, toPyContext dec os = .ok (.inst (c! "HdlContext") [(c! "objs", .list ps)]) ∧ ps.map (readPy enc) = os.map erase := by
  have : ∃ p, toPyContext dec os = .ok p := by
    rw [context_ok, toPyOs_ok]
    exact ⟨hw, fun s hs => ht s ((mem_textsOs s os).1 hs)⟩
  obtain ⟨p, hp⟩ := this
  obtain ⟨ps, rfl, h⟩ := C92_context_read dec enc henc os p hp
  exact ⟨ps, hp, h⟩

/-- C123 (supported fragment): `parse` of VHDL files with a new convertor succeeds, and the objects it makes have the meaning the LRM gives to the texts of
the files, in the order of the files, whatever the layout of the texts; the Python objects show these objects, as far as `erase` keeps them.
Missing: what C122 does not cover; the texts have to be decodable by Python. -/
theorem C123_parse_partial (env : Verif.Env) (hl : env.lang = 0) (x : Unknown) (U : List Str) (db : MacroDB) (ub : Bool) (fs : List VFile)
    (h : ∀ f ∈ fs, f.Good ∧ Present env f) :
    ∃ os, (pyParse env (frontEnd x) [] U (c! "utf-8") false (fs.map VFile.name) ⟨db, [], ub⟩).1 = .ok os ∧ Means os (fs.flatMap VFile.units) ∧
      ∀ (dec : Str → Option Str) (enc : Str → Str), (∀ s t, dec s = some t → enc t = s) → (∀ s ∈ fileTexts os, ∃ t, dec (cut s) = some t) →
        ∃ ps, toPyContext dec os = .ok (.inst (c! "HdlContext") [(c! "objs", .list ps)]) ∧ ps.map (readPy enc) = os.map erase := by
  obtain ⟨os, h1, h2, h3⟩ := front_files env hl x (U.map strEncode) fs h
  refine ⟨os, ?_, h1, fun dec enc henc ht => front_python h2 dec enc henc ht⟩
  unfold pyParse
  split
  · rename_i he
    simp only [List.map_eq_nil_iff] at he
    subst he
    have := h3 ⟨db, [], ub⟩
    simp only [List.map_nil, parseFiles, List.nil_append] at this
    cases os with
    | nil => rfl
    | cons o l => simp at this
  · have := h3 ⟨db, [], ub⟩
    rw [show (fs.map VFile.name).map strEncode = fs.map (strEncode ·.name) by simp, show strEncode (c! "utf-8") = c! "utf-8" from rfl]
    simp only [this, Except.map, List.nil_append]

/-- C123: the same for `parse_str`. -/
theorem C123_parse_str_partial (env : Verif.Env) (hl : env.lang = 0) (x : Unknown) (U : List Str) (db : MacroDB) (ub : Bool) (f : VFile) (h : f.Good) :
    ∃ os, (pyParseStr env (frontEnd x) [] U (c! "utf-8") false f.text ⟨db, [], ub⟩).1 = .ok os ∧ Means os f.units ∧
      ∀ (dec : Str → Option Str) (enc : Str → Str), (∀ s t, dec s = some t → enc t = s) → (∀ s ∈ fileTexts os, ∃ t, dec (cut s) = some t) →
        ∃ ps, toPyContext dec os = .ok (.inst (c! "HdlContext") [(c! "objs", .list ps)]) ∧ ps.map (readPy enc) = os.map erase := by
  obtain ⟨os, h1, h2, h3⟩ := front_text x h
  refine ⟨os, ?_, h1, fun dec enc henc ht => front_python h2 dec enc henc ht⟩
  unfold pyParseStr
  split
  · rename_i he
    obtain ⟨t, os', e1, e2, -⟩ := good_tree h
    have := front_parse x e1
    have h4 := h3 [] []
    simp only [parseText, this, List.foldl_nil] at h4
    simp [Logger.new, Logger.checkErrors, frontEnd, e2] at h4
    subst h4
    rw [he] at e1
    have : treeOf [] = some [] := by kernel_rfl
    rw [this] at e1
    cases e1
    cases e2
    rfl
  · rw [show strEncode (c! "utf-8") = c! "utf-8" from rfl]
    simp [parseString, hl, toUtf8, h3, Except.map]

/-- Two names of the text `ENTITY e IS END;`. -/
def exVFile (n : Str) : VFile := ⟨n, c! "ENTITY e IS END;", exFileSource, exEntityFile⟩

theorem exVFile_good (n : Str) : (exVFile n).Good where
  divided := exFile_divided
  toks := exEntity_toks
  reg := exEntity_reg
  ok := exEntity_ok

example (x : Unknown) : ∃ os, (pyParse (tableEnv 0 [] [(c! "f", c! "ENTITY e IS END;"), (c! "g", c! "ENTITY e IS END;")]) (frontEnd x) [] [] (c! "utf-8") false
    [c! "f", c! "g"] ⟨[], [], false⟩).1 = .ok os ∧ Means os (exEntityFile ++ exEntityFile) := by
  obtain ⟨os, h1, h2, -⟩ := C123_parse_partial (tableEnv 0 [] [(c! "f", c! "ENTITY e IS END;"), (c! "g", c! "ENTITY e IS END;")]) rfl x [] [] false
    [exVFile (c! "f"), exVFile (c! "g")] (by
      intro f hf
      simp only [List.mem_cons, List.not_mem_nil, or_false] at hf
      rcases hf with rfl | rfl <;> exact ⟨exVFile_good _, by decide, by decide⟩)
  exact ⟨os, h1, h2⟩

example (x : Unknown) : ∃ os, (pyParseStr (tableEnv 0 [] []) (frontEnd x) [] [] (c! "utf-8") false (c! "ENTITY e IS END;") ⟨[], [], false⟩).1 = .ok os ∧
    Means os exEntityFile := by
  obtain ⟨os, h1, h2, -⟩ := C123_parse_str_partial (tableEnv 0 [] []) rfl x [] [] false (exVFile []) (exVFile_good _)
  exact ⟨os, h1, h2⟩

end Verif.Vhdl
