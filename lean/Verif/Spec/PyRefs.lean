import Verif.ToPyObj
/-!
# Specification of the reference counts after a conversion to Python

`leaks`: how many references are never given up after a successful conversion. It is stated in terms of the AST only:
one for every list attribute of a Python object, two for every enumerator and every physical unit, one for every library.
`noDef`: no definition of a type inside an expression.
-/
namespace Verif.PyRef.Spec
open Verif

mutual
/-- One reference to the list of a type definition, two for every enumerator and unit. -/
def leaksE : Expr → Nat
  | .arr _ l => leaksEs l
  | .op _ _ l => leaksEs l
  | .enumDef _ _ _ ns vs => 1 + leaksPs ns vs
  | .physDef _ _ r ns vs => leaksE r + (1 + leaksPs (ns.map some) vs)
  | .classDef _ _ _ _ l _ _ => 1 + leaksEs l
  | _ => 0
def leaksEs : List Expr → Nat
  | [] => 0
  | e :: l => leaksE e + leaksEs l
def leaksPs : List (Option Str) → List Expr → Nat
  | _ :: ns, e :: l => (2 + leaksE e) + leaksPs ns l
  | _, _ => 0
end

mutual
/-- No definition of an enumeration, physical type or class. -/
def noDef : Expr → Prop
  | .arr _ l => noDefs l
  | .op _ _ l => noDefs l
  | .enumDef _ _ _ _ _ => False
  | .physDef _ _ _ _ _ => False
  | .classDef _ _ _ _ _ _ _ => False
  | _ => True
def noDefs : List Expr → Prop
  | [] => True
  | e :: l => noDef e ∧ noDefs l
end

def leaksId (d : IdDef) : Nat := leaksE d.type + leaksE d.value

def leaksIds : List IdDef → Nat
  | [] => 0
  | d :: l => leaksId d + leaksIds l

/-- The list of the parameters, if there is one. `ptr` tells whether a function without parameters has an empty list of parameters. -/
def leaksParams (ptr : FnHead → Bool) (h : FnHead) : Nat :=
  match h.params with
  | [] => if ptr h then 1 else 0
  | ps => 1 + leaksIds ps

variable (ptr : FnHead → Bool)

mutual
/-- Every statement has a list of labels. -/
def leaks : Obj → Nat
  | .null => 0
  | .id d => leaksId d
  | .record _ ms => 1 + leaksIds ms
  | .fn h b => leaksParams ptr h + (leaksE h.ret + (1 + leaksOs b))
  | .inst n m g p => leaksE n + (leaksE m + ((1 + leaksEs g) + (1 + leaksEs p)))
  | .modDec _ g p l => (1 + leaksIds g) + ((1 + leaksIds p) + (1 + leaksOs l))
  | .modDef _ m d l => leaksE m + (leaks d + (1 + leaksOs l))
  | .assign _ d s dl ev _ => leaksE s + leaksE d + leaksE dl + leaksEs (ev.getD []) + 1
  | .block _ _ l => (1 + leaksOs l) + 1
  | .case _ _ _ s cs d => leaksE s + ((1 + leaksBs cs) + (leaks d + 1))
  | .expr _ e => leaksE e
  | .for_ _ a c s b => leaks a + (leaksE c + (leaks s + (leaks b + 1)))
  | .forIn _ vs c b => (1 + leaksOs vs) + (leaksE c + (leaks b + 1))
  | .repeat_ _ n b => leaksE n + (leaks b + 1)
  | .while_ _ c b => leaksE c + (leaks b + 1)
  | .doWhile _ _ _ => 0
  | .if_ _ c t el f => leaksE c + (leaks t + ((1 + leaksBs el) + (leaks f + 1)))
  | .process _ _ s b => leaksEs (s.getD []) + (leaks b + 1)
  | .break_ _ => 1
  | .continue_ _ => 1
  | .nop _ => 1
  | .import_ _ l => leaksEs l + 1
  | .return_ _ v => leaksE v + 1
  | .wait _ l => (1 + leaksEs l) + 1
  | .idspace _ _ l => 1 + leaksOs l
  | .library _ => 1
def leaksOs : List Obj → Nat
  | [] => 0
  | o :: l => leaks o + leaksOs l
def leaksBs : List Branch → Nat
  | [] => 0
  | .mk e o :: l => (leaksE e + leaks o) + leaksBs l
end

/-- The labels can be converted. -/
def labelsOk (dec : Str → Option Str) (i : StmInfo) : Prop := ∃ p, pyStrs dec i.labels = .ok p

/-- Objects whose conversion does not go wrong in an attribute that is a list, or after such an attribute has been filled (sufficient
conditions, only for some objects). -/
def clean (dec : Str → Option Str) : Obj → Prop
  | .null => True
  | .id d => noDef d.type ∧ noDef d.value
  | .expr _ e => noDef e
  | .inst n m g p => noDef n ∧ noDef m ∧ (∃ q, toPyList dec g = .ok q) ∧ ∃ q, toPyList dec p = .ok q
  | .return_ i v => noDef v ∧ labelsOk dec i
  | .import_ i l => noDefs l ∧ labelsOk dec i
  | .repeat_ i n b => noDef n ∧ clean dec b ∧ labelsOk dec i
  | .while_ i c b => noDef c ∧ clean dec b ∧ labelsOk dec i
  | .doWhile _ _ _ => True
  | _ => False

end Verif.PyRef.Spec
