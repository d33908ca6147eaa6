import Verif.Props.SvModule
/-!
# Ports that are declared in the body of a module (C80)
-/
namespace Verif.Sv
open Verif Verif.Spec.Sv

section
variable {V S M : Type} (A : Alg V) (B : SAlg V S) (N : MAlg V S M) (leaf : Expr → V) (hA : Agrees A leaf) (hB : SAgrees A B) (hN : MAgrees N)
include hA hB hN

/-- C80 (supported fragment): the ports of a module `module m(a, b); ...` are those of the header in order, each with direction, type and
value of its declaration in the body. Missing: what `okHdrPorts` leaves out, see the `C80_violated` theorems. -/
theorem C80_ports_partial (h : ModHeader) (l : List (Option NonansiPort)) (items : List ModItem) (hok : okMod (.mk false h (.list (.nonansi l)) items)) :
    ∃ n gs ps os, visitMod (.mk false h (.list (.nonansi l)) items) = .ok (.modDef [] n (.modDec h.name.text gs ps []) os) ∧
      astPorts A B leaf ps = some (l.map (evNonansiPort A B (evBodyPorts A B items))) := by
  obtain ⟨o, h1, h2, _⟩ := mod_eval hA hB hN _ hok
  have h3 := h1
  simp only [visitMod, bind_ok, pure_ok, Bool.false_eq_true, if_false] at h3
  obtain ⟨gs, _, ps, hp, st, hst, rfl⟩ := h3
  refine ⟨_, _, _, _, h1, ?_⟩
  simp only [okMod] at hok
  obtain ⟨_, _, _, _, hh, hi, ha⟩ := hok
  obtain ⟨ds, gs', os, hds, h6, _, _, h9⟩ := modItems_eval hA hB hN h.params.isSome items hi
  obtain ⟨ps0, ps', h7, h8, h4, h5⟩ := hdrPorts_eval (B := B) hA _ items hh ds hds
  rw [hp] at h7
  obtain rfl := Except.ok.inj h7
  rw [h6 { generics := gs, ports := ps, objs := [] } ps' h8] at hst
  obtain rfl := Except.ok.inj hst
  have hf : freeOf ps' (items.flatMap modItemNames) := by
    intro p hp i hi he
    obtain ⟨j, hj, hn⟩ := h4 p hp
    exact ha i hi j hj (by rw [he, hn])
  simp only [List.nil_append, consume_free ps' os _ hf h9]
  exact h5
end

/--
```
module m(q, a);
  input a;
  output [W:Z] q;
  assign q = a;
endmodule
``` -/
def exOld : Mod := .mk false ⟨idI (c! "m"), none⟩ (.list (.nonansi [plainPort (idI (c! "q")), plainPort (idI (c! "a"))]))
  [.port (.input none [⟨idI (c! "a"), [], none⟩]), .port (.output (some (.type (.type exVec))) [⟨idI (c! "q"), [], none⟩]),
   .item (.assign [(idT (c! "q"), idE (c! "a"))])]

example : okMod exOld := by
  simp only [exOld, okMod, okHdrParams, okHdrPorts, okModItems, okNonansiDecl, okDeclType, okNetOrVar, okTypeI, names, okGenItem, List.mem_cons,
    List.not_mem_nil, or_false, forall_eq, forall_eq_or_imp, okVDims, okOptExp, List.isEmpty_nil, true_and, and_true, or_true]
  refine ⟨rfl, by decide +kernel, ⟨⟨⟨_, rfl, ok_idI (by decide +kernel)⟩, ⟨_, rfl, ok_idI (by decide +kernel)⟩⟩, by decide +kernel, ?_⟩,
    ⟨⟨by simp, ok_idI (by decide +kernel)⟩, ⟨by simp, ok_idI (by decide +kernel), ok_exVec⟩, ok_idT (by decide +kernel), ok_idE (by decide +kernel)⟩, ?_⟩
  · exact List.Perm.swap _ _ _
  · intro i hi
    cases hi

/-- The ports of the example: `q` first, with the type of its declaration. -/
example : ∃ n gs p1 p2 os, visitMod exOld = .ok (.modDef [] n (.modDec (c! "m") gs [p1, p2] []) os) ∧ p1.name = c! "q" ∧ p1.dir = .OUT ∧
    p2.name = c! "a" ∧ p2.dir = .IN := by
  simp only [exOld, visitMod, visitHdrParams, visitHdrPorts, visitPortList, visitNonansiPorts, plainPort, visitNonansiPort, visitNonansiExpr, visitDotIndex,
    visitDotIndexRanges, visitIdent, identStr, idI, splitTypeBase, visitModItems, visitModItem, visitNonansiDecl, visitNetOrVar, visitDTypeOrImpl,
    visit_exVec, visitVarIds, visitVarId, applyVDims, visitVDims, afterDims, visitVarIdsRest, visitOptExp, applyPortDecls, visitGenItem, bind, Except.bind,
    pure, Except.pure, Bool.false_eq_true, if_false]
  exact ⟨_, _, _, _, _, rfl, rfl, rfl, rfl, rfl⟩

/-! ## Variables with the name of a port -/

/-- Does the object declare a name of the list? -/
def declaresOne (ns : List Str) (o : Obj) : Bool :=
  match o.idDef? with
  | some d => ns.contains d.name
  | none => false

theorem consume_nodup (objs : List Obj) : ∀ ports : List IdDef, (ports.map (·.name)).Nodup →
    consumePortVars ports objs = (objs.filter (fun o => !declaresOne (ports.map (·.name)) o),
      ports.map fun p => (objs.filterMap Obj.idDef?).foldl (fun p v => if v.name = p.name then updPortVar v p else p) p) := by
  induction objs with
  | nil => intro ports _; simp [consumePortVars]
  | cons o l ih =>
    intro ports hn
    cases hd : o.idDef? with
    | none =>
      simp only [consumePortVars, hd, ih ports hn, List.filterMap_cons]
      rw [List.filter_cons_of_pos (by simp [declaresOne, hd])]
    | some v =>
      by_cases hv : v.name ∈ ports.map (·.name)
      · obtain ⟨l', hl'⟩ := updPort_some v.name (updPortVar v) ports hv
        have e := updPort_nodup _ _ _ _ hn hl'
        have en : l'.map (·.name) = ports.map (·.name) := by
          rw [e, List.map_map]
          apply List.map_congr_left
          intro p _
          simp only [Function.comp]
          split <;> rfl
        simp only [consumePortVars, hd, hl', ih l' (by rw [en]; exact hn), en, List.filterMap_cons, List.foldl_cons]
        rw [List.filter_cons_of_neg (by simp only [declaresOne, hd, Bool.not_eq_true', Bool.not_eq_false, List.contains_iff_mem]; exact hv), e, List.map_map]
        congr 1
        apply List.map_congr_left
        intro p _
        simp only [Function.comp]
        by_cases h : p.name = v.name
        · rw [if_pos h, if_pos h.symm]
        · rw [if_neg h, if_neg fun h' => h h'.symm]
      · have hu : updPort v.name (updPortVar v) ports = none := updPort_none _ _ _ fun p hp he => hv (List.mem_map.2 ⟨p, hp, he⟩)
        simp only [consumePortVars, hd, hu, ih ports hn, List.filterMap_cons, List.foldl_cons]
        rw [List.filter_cons_of_pos (by
          simp only [declaresOne, hd, Bool.not_eq_true', ← Bool.not_eq_true, List.contains_iff_mem]; exact hv)]
        congr 1
        apply List.map_congr_left
        intro p hp
        rw [if_neg fun h => hv (List.mem_map.2 ⟨p, hp, h.symm⟩)]

theorem foldl_name (l : List IdDef) : ∀ p : IdDef, (l.foldl (fun p v => if v.name = p.name then updPortVar v p else p) p).name = p.name ∧
    (l.foldl (fun p v => if v.name = p.name then updPortVar v p else p) p).dir = p.dir := by
  induction l with
  | nil => intro p; exact ⟨rfl, rfl⟩
  | cons v l ih =>
    intro p
    rw [List.foldl_cons]
    obtain ⟨h1, h2⟩ := ih (if v.name = p.name then updPortVar v p else p)
    rw [h1, h2]
    split <;> exact ⟨rfl, rfl⟩

theorem foldl_filter (l : List IdDef) : ∀ p : IdDef, l.foldl (fun p v => if v.name = p.name then updPortVar v p else p) p =
    (l.filter fun v => v.name = p.name).foldl (fun p v => updPortVar v p) p := by
  induction l with
  | nil => intro p; rfl
  | cons v l ih =>
    intro p
    rw [List.foldl_cons]
    by_cases h : v.name = p.name
    · rw [if_pos h, List.filter_cons_of_pos (by simpa using h), List.foldl_cons, ih]
      rfl
    · rw [if_neg h, List.filter_cons_of_neg (by simpa using h), ih]

/-- The declarations of a name among the objects of a body. -/
def declsOf (n : Str) (objs : List Obj) : List IdDef := (objs.filterMap Obj.idDef?).filter fun v => v.name = n

/-- C80: a declaration in the body with the name of a port, as in `output q; reg q;`, belongs to the port and is no item of the module;
name and direction of the port stay, and a port that is not declared again stays as it is. Missing: bodies with several declarations of
one name. -/
theorem C80_redeclared_partial (h : ModHeader) (ports : HdrPorts) (items : List ModItem) (gs ps : List IdDef) (st : ModState)
    (hg : visitHdrParams h.params = .ok gs) (hp : visitHdrPorts ports = .ok ps)
    (hst : visitModItems { generics := gs, ports := ps, objs := [] } items = .ok st) (hn : (st.ports.map (·.name)).Nodup) :
    ∃ gs' ps', visitMod (.mk false h ports items) = .ok (.modDef [] (.id none h.name.text) (.modDec h.name.text gs' (finishPorts .INOUT ps') [])
        (st.objs.filter fun o => !declaresOne (st.ports.map (·.name)) o)) ∧
      List.Forall₂ (fun p p' => p'.name = p.name ∧ p'.dir = p.dir ∧ (declsOf p.name st.objs = [] → p' = p) ∧
        ∀ v, declsOf p.name st.objs = [v] → p'.type = v.type ∧ (v.value = .null → p'.value = p.value) ∧ (v.value ≠ .null → p'.value = v.value) ∧
          p'.latched = (p.latched || v.latched) ∧ p'.static = (p.static || v.static) ∧ p'.const = (p.const || v.const)) st.ports ps' := by
  refine ⟨_, _, by simp only [visitMod, hg, hp, hst, consume_nodup _ _ hn, bind, Except.bind, pure, Except.pure, Bool.false_eq_true, if_false]; rfl, ?_⟩
  generalize st.ports = L
  induction L with
  | nil => exact .nil
  | cons p L ih =>
    refine .cons ⟨(foldl_name _ p).1, (foldl_name _ p).2, ?_, ?_⟩ ih
    · intro he
      simp only [declsOf] at he
      simp only [foldl_filter, he]
      rfl
    · intro v he
      simp only [declsOf] at he
      simp only [foldl_filter, he, List.foldl_cons, List.foldl_nil]
      refine ⟨rfl, (fun hv => by simp only [updPortVar, hv]), (fun hv => ?_), rfl, rfl, rfl⟩
      simp only [updPortVar]

/-- `module m(q); output q; reg [W:Z] q; endmodule` -/
example : ∃ ps st, visitHdrPorts (.list (.nonansi [plainPort (idI (c! "q"))])) = .ok ps ∧
    visitModItems { generics := [], ports := ps, objs := [] } [.port (.output none [⟨idI (c! "q"), [], none⟩]),
      .item (.data (.vars false none (some (.type exVec)) [⟨idI (c! "q"), [], .none⟩]))] = .ok st ∧
    (st.ports.map (·.name)).Nodup ∧ ∃ v, declsOf (c! "q") st.objs = [v] ∧ v.type ≠ .null := by
  simp only [visitHdrPorts, visitPortList, visitNonansiPorts, plainPort, visitNonansiPort, visitNonansiExpr, visitDotIndex,
    visitDotIndexRanges, visitIdent, identStr, idI, splitTypeBase, visitModItems, visitModItem, visitNonansiDecl, visitNetOrVar, visitDTypeOrImpl,
    visit_exVec, visitVarIds, visitVarId, applyVDims, visitVDims, afterDims, visitVarIdsRest, visitOptExp, applyPortDecls, visitGenItem, visitDataDecl,
    visitVarDecls, visitVarInit, bind, Except.bind, pure, Except.pure, Bool.false_eq_true, if_false]
  exact ⟨_, _, rfl, rfl, (by decide +kernel), _, rfl, (by intro h; cases h)⟩

/-- C80 is violated by an empty position in the list of ports: `module m(a, , b)` has three ports, the AST two, so that connections in
order are made to the wrong port. -/
theorem C80_violated_empty (a b : Str) :
    (∃ p q, visitHdrPorts (.list (.nonansi [plainPort (idI a), none, plainPort (idI b)])) = .ok [p, q]) ∧
    (evHdrPorts Term.alg STerm.alg [] (.list (.nonansi [plainPort (idI a), none, plainPort (idI b)]))).length = 3 := by
  refine ⟨?_, rfl⟩
  simp only [visitHdrPorts, visitPortList, visitNonansiPorts, plainPort, visitNonansiPort, visitNonansiExpr, visitDotIndex,
    visitDotIndexRanges, visitIdent, identStr, idI, splitTypeBase, bind, Except.bind, pure, Except.pure]
  exact ⟨_, _, rfl⟩

/-- C80 is violated by ports with explicit name: `module m(.a(b)); input b; ...` has the port `a`, the AST has the ports `a`, without
direction, and `b`. -/
theorem C80_violated_named (h : ModHeader) (hp : h.params = none) (a b : Str) (hab : a ≠ b) (ha : a ≠ c! ".*") :
    ∃ os, visitMod (.mk false h (.list (.nonansi [some (.named (idI a) (some (.one ⟨idI b, none, []⟩)))])) [.port (.input none [⟨idI b, [], none⟩])]) =
      .ok (.modDef [] (.id none h.name.text) (.modDec h.name.text [] [
        { name := a, type := .symb none .T_AUTO, value := .id none b },
        { name := b, type := .symb none .T_AUTO, value := .null, dir := .IN }] []) os) := by
  simp only [visitMod, hp, visitHdrParams, visitHdrPorts, visitPortList, visitNonansiPorts, visitNonansiPort, visitNonansiExpr, visitDotIndex,
    visitDotIndexRanges, visitIdent, identStr, idI, visitModItems, visitModItem, visitNonansiDecl, visitNetOrVar,
    visitVarIds, visitVarId, applyVDims, visitVDims, afterDims, visitVarIdsRest, visitOptExp, applyPortDecls, applyPortDecl, getPort,
    List.find?_cons, hab, decide_false, List.find?_nil, addPort, ha, consumePortVars, finishPorts, defaultType, bind, Except.bind,
    pure, Except.pure, Bool.false_eq_true, if_false]
  exact ⟨[], rfl⟩

end Verif.Sv
