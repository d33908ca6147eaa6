import Verif.Vhdl.StmTree
/-!
# VHDL files for which the front end makes a null pointer

A selected signal assignment without label that is a direct statement of a process or a subprogram body.
-/
namespace Verif.Spec
open Verif Verif.Vhdl

def nullSig : SigAssign → Prop
  | .sel .. | .selForce .. => True
  | _ => False

def nullSeq : Seq → Prop
  | .mk none (.sig a) => nullSig a
  | _ => False

mutual
def nullDecl : Decl → Prop
  | .package _ _ l | .packageBody _ l => nullDecls l
  | .subBody _ ds ss => nullDecls ds ∨ ∃ s ∈ ss, nullSeq s
  | _ => False
def nullDecls : List Decl → Prop
  | [] => False
  | d :: l => nullDecl d ∨ nullDecls l
end

def nullConcKind : ConcKind → Prop
  | .process _ _ ds ss => nullDecls ds ∨ ∃ s ∈ ss, nullSeq s
  | _ => False

mutual
def nullConc : Conc → Prop
  | .plain _ s => nullConcKind s
  | .block _ _ _ _ ds ss => nullDecls ds ∨ nullConcs ss
  | .inst .. => False
  | .forGen _ _ _ b _ => nullGenBody b
  | .ifGen _ c el f _ => nullGenCond c ∨ nullGenConds el ∨ nullGenElse f
  | .caseGen _ _ l _ => nullGenAlts l
def nullConcs : List Conc → Prop
  | [] => False
  | c :: l => nullConc c ∨ nullConcs l
def nullGenCond : GenCond → Prop
  | .mk _ _ b => nullGenBody b
def nullGenConds : List GenCond → Prop
  | [] => False
  | c :: l => nullGenCond c ∨ nullGenConds l
def nullGenElse : GenElse → Prop
  | .none => False
  | .some _ b => nullGenBody b
/-- The grammar has no alternative without choices. -/
def nullGenAlts : List GenAlt → Prop
  | [] => False
  | .mk _ ch b :: l => (ch ≠ [] ∧ nullGenBody b) ∨ nullGenAlts l
def nullGenBody : GenBody → Prop
  | .mk ds _ ss => nullDecls ds ∨ nullConcs ss
end

/-- The statements of an entity are not converted. -/
def nullLibUnit : LibUnit → Prop
  | .entity _ _ _ ds _ => nullDecls ds
  | .package _ _ l | .packageBody _ l => nullDecls l
  | .arch _ _ ds ss => nullDecls ds ∨ nullConcs ss
  | _ => False

end Verif.Spec
