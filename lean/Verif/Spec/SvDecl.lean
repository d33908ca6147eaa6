import Verif.Sv.Decl
import Verif.Spec.SvSem
/-!
# Specification: types of declared names, directions of ports
-/
namespace Verif.Spec.Sv
open Verif Verif.Sv

def noParams : List PathItem → Bool
  | [] => true
  | .mk _ .none :: l => noParams l
  | _ :: _ => false

/-- The data type has its width: it is not a bare `logic`, `bit`, `reg` (nor a class with parameters). -/
def closedT : DType → Bool
  | .prim (.vec _ _) (.range (.range _ _) :: _) => true
  | .prim (.vec _ _) _ => false
  | .path (.mk _ _ items) _ => noParams items
  | .virtual _ .none _ => true
  | .virtual _ _ _ => false
  | _ => true

/-- The same for a type that may be left out or implicit. -/
def closedI : Option DTypeOrImpl → Bool
  | none => true
  | some (.type t) => closedT t
  | some (.impl ⟨_, some (.range _ _) :: _⟩) => true
  | some (.impl _) => false

def closedNV : Option NetOrVar → Bool
  | none => true
  | some (.interconnect none) => true
  | some (.interconnect (some t)) => closedI (some (.impl t))
  | some (.var t) => closedI t
  | some (.net _ t) => closedI t
  | some (.type t) => closedI (some t)

def closedNP : Option NetPort → Bool
  | none => true
  | some (.interconnect none) => true
  | some (.interconnect (some t)) => closedI (some (.impl t))
  | some (.net _ t) => closedI t
  | some (.type t) => closedI (some t)

def closedVT : Option VarDType → Bool
  | none => true
  | some (.var t) => closedI t
  | some (.type t) => closedT t

/-- The type of a non-ANSI port declaration has its width. -/
def closedDecl : NonansiDecl → Bool
  | .inout t _ => closedNP t
  | .input t _ => closedNV t
  | .output t _ => closedNV t
  | .iface _ _ _ => true
  | .ref t _ => closedVT t

/-- One of the names of a port declaration alone. -/
def only (v : VarId) : NonansiDecl → NonansiDecl
  | .inout t _ => .inout t [v]
  | .input t _ => .input t [v]
  | .output t _ => .output t [v]
  | .iface i m _ => .iface i m [v]
  | .ref t _ => .ref t [v]

def names : NonansiDecl → List VarId
  | .inout _ l => l
  | .input _ l => l
  | .output _ l => l
  | .iface _ _ l => l
  | .ref _ l => l

/-- The direction keyword of a port declaration. -/
def declDir : NonansiDecl → Dir
  | .inout _ _ => .INOUT
  | .input _ _ => .IN
  | .output _ _ => .OUT
  | .iface _ _ _ => .LINKAGE
  | .ref _ _ => .LINKAGE

/-- `input`, `output`, `inout` and `ref` as directions of the AST. -/
def dirOf : PortDir → Dir
  | .input => .IN
  | .output => .OUT
  | .inout => .INOUT
  | .ref => .LINKAGE

/-- The direction keyword of an ANSI port, if it has one. -/
def ansiDir : AnsiPort → Option PortDir
  | .decl (.dir d _) _ _ _ => some d
  | .expl (some d) _ _ => some d
  | _ => none

/-- Directions of a port list: its own keyword or that of the nearest preceding port that has one, `first` if there is none. -/
def ansiDirs (first : Dir) : List AnsiPort → List Dir
  | [] => []
  | p :: l => match ansiDir p with
    | some d => dirOf d :: ansiDirs (dirOf d) l
    | none => first :: ansiDirs first l

/-- The direction written in front of a `tf_port_declaration` or argument. -/
def tfDirOf : TfDir → Dir
  | .constRef => .LINKAGE
  | .dir d => dirOf d

def notVar : NetOrVar → Bool
  | .var _ => false
  | _ => true

/-- Headers of a port that the following ports can share: a type that has its width and is not marked by `var`, or an interface, or only
a direction. -/
def groupHead : AnsiHead → Bool
  | .none => false
  | .dir _ none => true
  | .dir _ (some t) => closedNV (some t) && notVar t
  | .type t => closedNV (some t) && notVar t
  | .iface _ _ => true

/-- The ports `name dims = value` that follow a port with a header. -/
structure Follower where
  name : Ident
  dims : List VDim
  value : Option Exp

/-- Written without header. -/
def Follower.bare (f : Follower) : AnsiPort := .decl .none f.name f.dims f.value
/-- Written with a header. -/
def Follower.withHead (h : AnsiHead) (f : Follower) : AnsiPort := .decl h f.name f.dims f.value

end Verif.Spec.Sv
