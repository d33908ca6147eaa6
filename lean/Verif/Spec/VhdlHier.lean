import Verif.HdlObj
/-!
# Specification: the hierarchy of a design

What an AST says about the hierarchy: the libraries and used names, the entities, the architectures with their entity and their component
instances (label, name, generic map, port map; also inside blocks and generate statements, in order), the packages.
-/
namespace Verif.Spec
open Verif

mutual
/-- The component instances inside a concurrent statement. -/
def insts : Obj → List Obj
  | .inst l m g p => [.inst l m g p]
  | .block _ _ l => instsL l
  | .forIn _ _ _ b => insts b
  | .if_ _ _ t el f => insts t ++ instsB el ++ insts f
  | .case _ _ _ _ cs d => instsB cs ++ insts d
  | _ => []
def instsL : List Obj → List Obj
  | [] => []
  | o :: l => insts o ++ instsL l
def instsB : List Branch → List Obj
  | [] => []
  | .mk _ o :: l => insts o ++ instsB l
end

/-- A part of the hierarchy. -/
inductive Hier
  | library (n : Str)
  | use (l : List Expr)
  | entity (n : Str)
  | arch (n : Str) (entity : Expr) (insts : List Obj)
  | package (n : Str) (header : Bool)

/-- The hierarchy of the objects of a design file. -/
def hier : List Obj → List Hier
  | [] => []
  | .library n :: l => .library n :: hier l
  | .import_ _ u :: l => .use u :: hier l
  | .modDec n _ _ _ :: l => .entity n :: hier l
  | .modDef n e _ os :: l => .arch n e (instsL os) :: hier l
  | .idspace n d _ :: l => .package n d :: hier l
  | _ :: l => hier l

end Verif.Spec
