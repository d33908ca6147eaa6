import Verif.VhdlUnitLemmas
import Verif.Props.VhdlStm
/-!
# Meaning of VHDL declarations (C84), generics, ports and parameters (C85), types (C86)
-/
namespace Verif.Vhdl
open Verif Verif.Spec

/-! ## Declarations -/

/-- C84 (supported fragment): the objects of a declaration have the meaning of the declaration, whatever types and expressions mean.
Missing: what `okDecl` leaves out, see the `C84_violated` theorems. -/
theorem C84_declaration_meaning_partial {V S : Type} (A : Alg V) (B : SAlg V S) (leaf : Expr → V) (hA : Agrees A leaf) (hB : SAgrees B leaf)
    (d : Decl) (h : okDecl d) : ∃ os, visitDecl false d = .ok os ∧ astObjs A B leaf os = some (evDecl A B d) :=
  decl_eval hA hB d h

/-- C84: the same for the declarations of an architecture, package, process, ... -/
theorem C84_declarations_meaning_partial {V S : Type} (A : Alg V) (B : SAlg V S) (leaf : Expr → V) (hA : Agrees A leaf) (hB : SAgrees B leaf)
    (l : List Decl) (h : okDecls l) : ∃ os, visitDecls false l = .ok os ∧ astObjs A B leaf os = some (evDecls A B l) :=
  decls_eval hA hB l h

/-- C84: no two lists of declarations with different meanings have the same AST. -/
theorem C84_declarations_injective_partial (x y : List Decl) (hx : okDecls x) (hy : okDecls y) (h : visitDecls false x = visitDecls false y) :
    evDecls Term.alg STerm.alg x = evDecls Term.alg STerm.alg y := by
  obtain ⟨e, h1, h2⟩ := decls_eval Term.agrees STerm.agrees x hx
  obtain ⟨f, h3, h4⟩ := decls_eval Term.agrees STerm.agrees y hy
  rw [h1, h3] at h
  cases h
  exact Option.some.inj (h2.symm.trans h4)

theorem cloneVars_names {t e : Expr} : ∀ {ns : List Str} {l : List IdDef}, cloneVars t e ns = .ok l →
    List.Forall₂ (fun n d => ∃ t e, d = { name := n, type := t, value := e }) ns l
  | [], l, h => by cases h; exact .nil
  | m :: ns, l, h => by
    simp only [cloneVars] at h
    obtain ⟨t', -, h⟩ := bind_ok h
    obtain ⟨v', -, h⟩ := bind_ok h
    obtain ⟨r, hr, h⟩ := bind_ok h
    cases h
    exact .cons ⟨_, _, rfl⟩ (cloneVars_names hr)

/-- The plain definitions of names. -/
theorem extractVars_names {v : VarList} {l : List IdDef} (h : extractVars v = .ok l) :
    List.Forall₂ (fun n d => ∃ t e, d = { name := n, type := t, value := e }) v.names l := by
  simp only [extractVars] at h
  obtain ⟨t, -, h⟩ := bind_ok h
  obtain ⟨e, -, h⟩ := bind_ok h
  obtain ⟨ns, ty, i⟩ := v
  cases ns with
  | nil => cases h; exact .nil
  | cons n ns =>
    obtain ⟨l', hl, h⟩ := bind_ok h
    cases h
    exact .cons ⟨_, _, rfl⟩ (cloneVars_names hl)

theorem forall₂_map {α β γ : Type} {R : α → β → Prop} {Q : α → γ → Prop} {f : β → γ} (hf : ∀ a b, R a b → Q a (f b)) :
    ∀ {l : List α} {m : List β}, List.Forall₂ R l m → List.Forall₂ Q l (m.map f)
  | [], _, .nil => .nil
  | _ :: _, _ :: _, .cons h1 h2 => .cons (hf _ _ h1) (forall₂_map hf h2)

/-- C84: a declaration of constants, variables or signals, supported or not, gives exactly one object for each declared name, in the
order of the names, and its flags say what it is. -/
theorem C84_one_object_per_name (h : Bool) (v : VarList) (os : List Obj) :
    (visitDecl h (.constant v) = .ok os → List.Forall₂ (fun n o => ∃ t e, o = .id { name := n, type := t, value := e, const := true }) v.names os) ∧
    (∀ sh, visitDecl h (.variable sh v) = .ok os →
      List.Forall₂ (fun n o => ∃ t e, o = .id { name := n, type := t, value := e, latched := true, shared := sh }) v.names os) ∧
    (∀ k, visitDecl h (.signal v k) = .ok os → List.Forall₂ (fun n o => ∃ t e, o = .id { name := n, type := t, value := e }) v.names os) := by
  refine ⟨fun hv => ?_, fun sh hv => ?_, fun k hv => ?_⟩ <;>
  · simp only [visitDecl] at hv
    obtain ⟨l, hl, hv⟩ := bind_ok hv
    cases hv
    refine forall₂_map (fun n d hd => ?_) (extractVars_names hl)
    obtain ⟨t, e, rfl⟩ := hd
    exact ⟨t, e, rfl⟩

/-- `T` -/
def idS (s : Str) : SubInd := .mk .none (.lit (.ident s)) .none

theorem ok_idS (s : Str) : okSubInd (idS s) := by simp only [idS, okSubInd, okResol, okConstr]; exact ⟨trivial, ok_idN s, trivial⟩

theorem ok_vars (ns : List Str) (t : Str) (i : Option Str) : okVars ⟨ns, idS t, i.map idE⟩ :=
  ⟨ok_idS t, by cases i with | none => intro e he; cases he | some i => exact ok_opt i⟩

/--
```
constant a, b : T := x;
shared variable v : T;
signal s : T;
alias n : T is s;
subtype U is T;
type E is (lo, '1');
use lib.pkg.all;
impure function f(c : T; variable w : inout T) return T is
  variable r : T;
begin
  return r;
end;
component comp generic (g : T := x); port (p, q : in T; o : out T); end component;
``` -/
def exDecls : List Decl :=
  [.constant ⟨[c! "a", c! "b"], idS (c! "T"), some (idE (c! "x"))⟩,
   .variable true ⟨[c! "v"], idS (c! "T"), none⟩,
   .signal ⟨[c! "s"], idS (c! "T"), none⟩ false,
   .alias_ (c! "n") (some (idS (c! "T"))) (.lit (.ident (c! "s"))) false,
   .subtype (c! "U") (idS (c! "T")),
   .type (c! "E") (.enum [.ident (c! "lo"), .chr (c! "'1'")]),
   .use [⟨c! "lib", [.lit (.ident (c! "pkg")), .all]⟩],
   .subBody (.func true (.ident (c! "f")) [] [.sig false ⟨[c! "c"], idS (c! "T"), none⟩ none false, .var ⟨[c! "w"], idS (c! "T"), none⟩ (some .inout)]
     (.lit (.ident (c! "T")))) [.variable false ⟨[c! "r"], idS (c! "T"), none⟩] [.mk none (.ret (some (idE (c! "r"))))],
   .component (c! "comp") [.sig false ⟨[c! "g"], idS (c! "T"), some (idE (c! "x"))⟩ none false]
     [.sig false ⟨[c! "p", c! "q"], idS (c! "T"), none⟩ (some .in_) false, .sig true ⟨[c! "o"], idS (c! "T"), none⟩ (some .out) false]]

theorem ok_exDecls : okDecls exDecls := by
  simp only [exDecls, okDecls, okDecl, okTypeDef, okSubSpec, okSeqs, okSeq, okSeqKind, SeqKind.endLabel]
  refine ⟨ok_vars _ _ (some _), ok_vars _ _ none, ⟨ok_vars _ _ none, trivial⟩, ⟨?_, ok_idN _, trivial⟩, ok_idS _, ?_, ?_,
    ⟨⟨trivial, ?_, ok_idN _⟩, ⟨ok_vars _ _ none, trivial⟩, ⟨ok_opt _, .inl trivial⟩, trivial⟩, ⟨?_, ?_⟩, trivial⟩
  · intro s hs; cases hs; exact ok_idS _
  · intro t ht; simp only [List.mem_cons, reduceCtorEq, List.not_mem_nil, or_false, false_or, EnumLit.chr.injEq] at ht; subst ht
    exact ⟨_, rfl⟩
  · intro n hn; simp only [List.mem_singleton] at hn; subst hn
    intro s hs; simp only [List.mem_cons, List.not_mem_nil, or_false] at hs
    rcases hs with rfl | rfl
    · exact ⟨_, rfl⟩
    · trivial
  · intro i hi; simp only [List.mem_cons, List.not_mem_nil, or_false] at hi
    rcases hi with rfl | rfl
    · exact ⟨ok_vars _ _ none, rfl, .inr rfl⟩
    · exact ⟨ok_vars _ _ none, rfl⟩
  · intro i hi; simp only [List.mem_singleton] at hi; subst hi
    exact ⟨ok_vars _ _ (some _), rfl, .inr rfl⟩
  · intro i hi; simp only [List.mem_cons, List.not_mem_nil, or_false] at hi
    rcases hi with rfl | rfl
    · exact ⟨ok_vars _ _ none, rfl, .inl rfl⟩
    · exact ⟨ok_vars _ _ none, rfl, .inl rfl⟩

example : okDecls exDecls := ok_exDecls

example : ∃ os, visitDecl false (.constant ⟨[c! "a", c! "b"], idS (c! "T"), some (idE (c! "x"))⟩) = .ok os := by
  obtain ⟨os, h, -⟩ := C84_declaration_meaning_partial Term.alg STerm.alg Term.tok Term.agrees STerm.agrees
    (.constant ⟨[c! "a", c! "b"], idS (c! "T"), some (idE (c! "x"))⟩) (by simp only [okDecl]; exact ok_vars _ _ (some _))
  exact ⟨os, h⟩

/-- C84 is violated by declarations that are not in the AST at all: files, attributes, groups, instantiations of packages and
subprograms, configuration and disconnection specifications. -/
theorem C84_violated_dropped (h : Bool) (d : Decl)
    (hd : (∃ l t, d = .file l t) ∨ (∃ n, d = .attrDecl n ∨ d = .attrSpec n ∨ d = .groupTemplate n ∨ d = .group n ∨ d = .subInst n ∨ d = .packageInst n) ∨
      d = .configSpec ∨ d = .disconnect) : visitDecl h d = .ok [] := by
  rcases hd with ⟨l, t, rfl⟩ | ⟨n, rfl | rfl | rfl | rfl | rfl | rfl⟩ | rfl | rfl <;> simp [visitDecl]

example (d : Decl) (h : d = .attrSpec (c! "keep")) : (∃ l t, d = .file l t) ∨ (∃ n, d = .attrDecl n ∨ d = .attrSpec n ∨ d = .groupTemplate n ∨ d = .group n ∨
    d = .subInst n ∨ d = .packageInst n) ∨ d = .configSpec ∨ d = .disconnect := .inr (.inl ⟨_, .inr (.inl h)⟩)

/-- C84 is violated by the kind of a signal: `signal s : T bus;` has the AST of `signal s : T;`. -/
theorem C84_violated_signal_kind (h : Bool) (v : VarList) : visitDecl h (.signal v true) = visitDecl h (.signal v false) := by
  simp [visitDecl]

/-- C84 is violated by the signature of an alias: overloaded subprograms are not told apart. -/
theorem C84_violated_alias (h : Bool) (d : Str) (t : Option SubInd) (n : Name) :
    visitDecl h (.alias_ d t n true) = visitDecl h (.alias_ d t n false) := by
  simp [visitDecl]

/-- C84 is violated by generic subprograms and packages: they have the AST of the ones without generics. -/
theorem C84_violated_generics (h : Bool) (d : Designator) (g p : List Intf) (imp : Bool) (r : Name) (n : Str) (l : List Decl) :
    visitDecl h (.subprogram (.proc d g p)) = visitDecl h (.subprogram (.proc d [] p)) ∧
    visitDecl h (.subprogram (.func imp d g p r)) = visitDecl h (.subprogram (.func imp d [] p r)) ∧
    visitDecl h (.package n g l) = visitDecl h (.package n [] l) := by
  simp [visitDecl, visitSubSpec]

/-! ## Generics, ports and parameters -/

/-- C85 (supported fragment): the definitions of an interface list have the meaning of the list: names, order, types, default values,
classes and modes. Missing: what `okIntf` leaves out, see the `C85_violated` theorems. -/
theorem C85_interface_meaning_partial {V S : Type} (A : Alg V) (B : SAlg V S) (leaf : Expr → V) (hA : Agrees A leaf) (c : ICtx)
    (l : List Intf) (h : okIntfs c l) : ∃ r, visitIntfs l = .ok r ∧ astIntfs A B leaf c r = some (l.flatMap (evIntf A B c)) :=
  intfs_eval hA l h

/-- C85: interface lists with different meanings have different ASTs. -/
theorem C85_interface_injective_partial (c : ICtx) (x y : List Intf) (hx : okIntfs c x) (hy : okIntfs c y) (h : visitIntfs x = visitIntfs y) :
    x.flatMap (evIntf Term.alg STerm.alg c) = y.flatMap (evIntf Term.alg STerm.alg c) := by
  obtain ⟨e, h1, h2⟩ := intfs_eval (B := STerm.alg) Term.agrees x hx
  obtain ⟨f, h3, h4⟩ := intfs_eval (B := STerm.alg) Term.agrees y hy
  rw [h1, h3] at h
  cases h
  exact Option.some.inj (h2.symm.trans h4)

/-- The names of interface constants, signals and variables. -/
def Intf.names : Intf → List Str
  | .const v _ => v.names
  | .sig _ v _ _ => v.names
  | .var v _ => v.names
  | _ => []

/-- C85: for every interface list, supported or not, there is one definition per name of a constant, signal or variable, in order. -/
theorem C85_one_definition_per_name (l : List Intf) (r : List IdDef) (h : visitIntfs l = .ok r) : r.map (·.name) = l.flatMap Intf.names := by
  have key : ∀ (v : VarList) (d : List IdDef) (f : IdDef → IdDef), (∀ x, (f x).name = x.name) → extractVars v = .ok d →
      (d.map f).map (·.name) = v.names := by
    intro v d f hf hd
    have := extractVars_names hd
    generalize v.names = ns at this
    clear hd
    induction this with
    | nil => rfl
    | cons h1 _ ih =>
      obtain ⟨t, e, rfl⟩ := h1
      simp only [List.map_cons, hf, ih]
  induction l generalizing r with
  | nil => cases h; rfl
  | cons i l ih =>
    simp only [visitIntfs] at h
    obtain ⟨a, ha, h⟩ := bind_ok h
    obtain ⟨b, hb, h⟩ := bind_ok h
    cases h
    simp only [List.map_append, List.flatMap_cons, ih b hb]
    congr 1
    cases i with
    | const v _ => simp only [visitIntf] at ha; obtain ⟨d, hd, ha⟩ := bind_ok ha; cases ha; exact key v d _ (fun _ => rfl) hd
    | sig kw v m b => simp only [visitIntf] at ha; obtain ⟨d, hd, ha⟩ := bind_ok ha; cases ha; exact key v d _ (fun _ => rfl) hd
    | var v m => simp only [visitIntf] at ha; obtain ⟨d, hd, ha⟩ := bind_ok ha; cases ha; exact key v d _ (fun _ => rfl) hd
    | file => cases ha; rfl
    | type => cases ha; rfl
    | subprogram => cases ha; rfl
    | package => cases ha; rfl

/-- C85: the direction of a port is the declared mode; a port without mode is an input. -/
theorem C85_port_direction (kw bus : Bool) (v : VarList) (m : Option Mode) (r : List IdDef) (h : visitIntf (.sig kw v m bus) = .ok r) :
    ∀ d ∈ r, d.dir = (match m with
      | none => .IN
      | some .in_ => .IN
      | some .out => .OUT
      | some .inout => .INOUT
      | some .buffer => .BUFFER
      | some .linkage => .LINKAGE) := by
  simp only [visitIntf] at h
  obtain ⟨l, -, h⟩ := bind_ok h
  cases h
  intro d hd
  simp only [List.mem_map] at hd
  obtain ⟨x, -, rfl⟩ := hd
  cases m with
  | none => rfl
  | some m => cases m <;> rfl

/-- `a, b : in T; signal c : out T := x` -/
def exPorts : List Intf :=
  [.sig false ⟨[c! "a", c! "b"], idS (c! "T"), none⟩ (some .in_) false, .sig true ⟨[c! "c"], idS (c! "T"), some (idE (c! "x"))⟩ (some .out) false]

theorem ok_exPorts : okIntfs .port exPorts := by
  intro i hi; simp only [exPorts, List.mem_cons, List.not_mem_nil, or_false] at hi
  rcases hi with rfl | rfl
  · exact ⟨ok_vars _ _ none, rfl, .inl rfl⟩
  · exact ⟨ok_vars _ _ (some _), rfl, .inl rfl⟩

example : okIntfs .port exPorts := ok_exPorts

example : ∃ r, visitIntfs exPorts = .ok r := by
  obtain ⟨r, h, -⟩ := C85_interface_meaning_partial Term.alg STerm.alg Term.tok Term.agrees .port exPorts ok_exPorts
  exact ⟨r, h⟩

example : ∃ r, visitIntf (.sig true ⟨[c! "c"], idS (c! "T"), none⟩ (some .out) false) = .ok r := by
  obtain ⟨r, h, -⟩ := intf_eval (c := .port) (B := STerm.alg) Term.agrees (i := .sig true ⟨[c! "c"], idS (c! "T"), none⟩ (some .out) false)
    ⟨ok_vars _ _ none, rfl, .inl rfl⟩
  exact ⟨r, h⟩

/-- C85 is violated by signal parameters: the parameter `signal p : in T` has the AST of the constant parameter `p : in T`. -/
theorem C85_violated_signal_parameter (p t : Str) :
    visitIntf (.sig true ⟨[p], idS t, none⟩ none false) = visitIntf (.sig false ⟨[p], idS t, none⟩ none false) ∧
    evIntf Term.alg STerm.alg .param (.sig true ⟨[p], idS t, none⟩ none false) ≠ evIntf Term.alg STerm.alg .param (.sig false ⟨[p], idS t, none⟩ none false) := by
  constructor
  · simp [visitIntf]
  · simp [evIntf, evVars, defaultKind, STerm.alg, STerm.ikind]

/-- C85 is violated by `bus`: it is not in the AST. -/
theorem C85_violated_bus (kw : Bool) (v : VarList) (m : Option Mode) : visitIntf (.sig kw v m true) = visitIntf (.sig kw v m false) := by
  simp [visitIntf]

/-- C85 is violated by file parameters and generic types, subprograms and packages: they are not in the AST. A call with the arguments
`(f, x)` does no longer fit the parameter list. -/
theorem C85_violated_dropped (l : List Str) (t : SubInd) (n : Str) :
    visitIntfs [.file l t] = .ok [] ∧ visitIntfs [.type n] = .ok [] ∧ visitIntfs [.subprogram n] = .ok [] ∧ visitIntfs [.package n] = .ok [] :=
  ⟨rfl, rfl, rfl, rfl⟩

/-! ## Types -/

/-- C86 (supported fragment): the object of a type declaration has the meaning of the declaration: name, literals, ranges, units,
element types and index ranges, record elements, in order. Missing: access, file and protected types (`C86_violated_types`). -/
theorem C86_type_meaning_partial {V S : Type} (A : Alg V) (B : SAlg V S) (leaf : Expr → V) (hA : Agrees A leaf) (n : Str) (t : TypeDef)
    (h : okTypeDef t) : ∃ o, visitTypeDef n t = .ok o ∧ astObj A B leaf o = some (evTypeDef A B n t) :=
  type_eval hA n h

/-- C86: types with different meanings have different ASTs. -/
theorem C86_type_injective_partial (m n : Str) (x y : TypeDef) (hx : okTypeDef x) (hy : okTypeDef y) (h : visitTypeDef m x = visitTypeDef n y) :
    evTypeDef Term.alg STerm.alg m x = evTypeDef Term.alg STerm.alg n y := by
  obtain ⟨e, h1, h2⟩ := type_eval (B := STerm.alg) Term.agrees m hx
  obtain ⟨f, h3, h4⟩ := type_eval (B := STerm.alg) Term.agrees n hy
  rw [h1, h3] at h
  cases h
  exact Option.some.inj (h2.symm.trans h4)

/-- `range 0 to 7 units fs; ps = 1000 fs; end units` -/
example : okTypeDef (.phys (.expl (.mk (.prim (.dec (c! "0"))) false (.prim (.dec (c! "7"))))) (c! "fs") [(c! "ps", .dec (c! "1000") (.lit (.ident (c! "fs"))))]) := by
  simp only [okTypeDef, okRange, okERange, okSimple, okPrimary]
  refine ⟨⟨⟨_, rfl⟩, ⟨_, rfl⟩⟩, ?_⟩
  intro u hu; simp only [List.mem_singleton] at hu; subst hu
  exact ⟨⟨_, rfl⟩, ok_idN _⟩

/-- `record a, b : T; c : U; end record` -/
example : okTypeDef (.record [([c! "a", c! "b"], idS (c! "T")), ([c! "c"], idS (c! "U"))]) := by
  intro p hp; simp only [List.mem_cons, List.not_mem_nil, or_false] at hp
  rcases hp with rfl | rfl <;> exact ok_idS _

/-- C86 is violated by access, file and protected types: the type is declared, but what it is does not depend on the declaration. -/
theorem C86_violated_types (n : Str) (s s' : SubInd) (f : Name) :
    visitTypeDef n (.access s) = visitTypeDef n (.access s') ∧ visitTypeDef n (.access s) = visitTypeDef n (.file f) ∧
    visitTypeDef n (.access s) = visitTypeDef n .protected_ :=
  ⟨rfl, rfl, rfl⟩

end Verif.Vhdl
