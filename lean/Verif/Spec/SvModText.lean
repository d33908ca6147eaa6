import Verif.Spec.SvItemText
/-!
# The syntax and the meaning of SystemVerilog modules

Modules in the sense of IEEE 1800-2017 (A.1.2, 23.2): the header with the parameters and the list of ports in ANSI style, the items, `endmodule`. Which tokens a module
consists of is `SMod.Toks`, what it means is `SMod.eval`; neither depends on the grammar or the parser.
-/
namespace Verif.Spec.SvLrm
open Verif Sv Spec.Sv

/-- LRM 23.2.2.2: the type of a port: nothing, `[ a : b ]`, `logic`, `logic [ a : b ]`, `integer`, `wire`, `wire [ a : b ]`. -/
inductive SPortTy
  | plain
  | range (a b : SExp)
  | vec (k : SVec)
  | vecRange (k : SVec) (a b : SExp)
  | num (k : SNum)
  | net (k : SNet) (range : Option (SExp × SExp))

/-- A port: direction and type if they are written, and the name. -/
structure SPort where
  head : Option (PortDir × SPortTy)
  name : Ident

/-- What follows the name of the module; `names`: the old style, in which the body declares the ports. -/
inductive SPorts
  | none
  | empty
  | list (first : SPort) (more : List SPort)
  | names (first : Ident) (more : List Ident)

/-- LRM 6.20, A.2.1.1: a declaration of parameters in the header of a module: `parameter logic [ a : b ] p = e , q = f`, `localparam p = e`. -/
structure SPar where
  loc : Bool
  ty : SParTy
  first : Ident × SExp
  more : List (Ident × SExp)

/-- The direction of a port in the old style. -/
inductive SIo
  | input
  | output
  | inout

/-- LRM A.1.4: an item of a module: those of generate blocks, parameters `parameter logic [ a : b ] p = e , q = f ;`, and
(A.2.1.2) ports `input logic [ a : b ] i , j ;`, or `output`, `inout`. -/
inductive SModItem
  | item (g : SItem)
  | par (ty : SParTy) (first : Ident × SExp) (more : List (Ident × SExp))
  | ports (io : SIo) (ty : SPortTy) (first : Ident) (more : List Ident)

/-- LRM 23.2.1: `module name #( parameters ) ports ; items endmodule : label` -/
structure SMod where
  name : Ident
  params : Option (SPar × List SPar)
  ports : SPorts
  items : List SModItem
  label : Option Ident

def SPorts.all : SPorts → List SPort
  | .none => []
  | .empty => []
  | .list p l => p :: l
  | .names _ _ => []

/-! ## Tokens -/

def SPortTy.Toks : SPortTy → List STok → Prop
  | .plain => Empty
  | .range a b => rangeToks a b
  | .vec k => OneT k.ty k.text
  | .vecRange k a b => Cat (OneT k.ty k.text) (rangeToks a b)
  | .num k => OneT k.ty k.text
  | .net k r => Cat (OneT k.ty k.text) (optRange r)

def dirTy : PortDir → ST
  | .input => .KW_INPUT | .output => .KW_OUTPUT | .inout => .KW_INOUT | .ref => .KW_REF

def SPort.Toks (p : SPort) : List STok → Prop :=
  match p.head with
  | none => OneP (Ident.Tok p.name)
  | some (d, t) => Cat (One (dirTy d)) (Cat t.Toks (OneP (Ident.Tok p.name)))

/-- A list in ANSI style begins with a direction. -/
def SPorts.Toks : SPorts → List STok → Prop
  | .none => Empty
  | .empty => Cat (One .LPAREN) (One .RPAREN)
  | .list p l => fun w => p.head.isSome = true ∧ inParens (Cat p.Toks (restToks (One .COMMA) SPort.Toks l)) w
  | .names a l => inParens (Cat (OneP (Ident.Tok a)) (restToks (One .COMMA) (fun i => OneP (Ident.Tok i)) l))

def ioDir : SIo → PortDir
  | .input => .input
  | .output => .output
  | .inout => .inout

def parKw : Bool → ST
  | true => .KW_LOCALPARAM
  | false => .KW_PARAMETER

def SPar.Toks (p : SPar) : List STok → Prop :=
  Cat (One (parKw p.loc)) (Cat (parTyToks p.ty) (Cat (parToks p.first) (restToks (One .COMMA) parToks p.more)))

def parsToks : Option (SPar × List SPar) → List STok → Prop
  | none => Empty
  | some (p, l) => Cat (One .HASH) (inParens (Cat p.Toks (restToks (One .COMMA) SPar.Toks l)))

/-- An item of a module is no block `begin ... end`. -/
def SModItem.Toks : SModItem → List STok → Prop
  | .item g => fun w => g.isBlock = false ∧ g.Toks w
  | .par t a l => Cat (One .KW_PARAMETER) (Cat (parTyToks t) (Cat (parToks a) (Cat (restToks (One .COMMA) parToks l) (One .SEMI))))
  | .ports o t a l => Cat (One (dirTy (ioDir o))) (Cat t.Toks (Cat (OneP (Ident.Tok a)) (Cat (restToks (One .COMMA) (fun i => OneP (Ident.Tok i)) l) (One .SEMI))))

def bodyToks : List SModItem → List STok → Prop
  | [] => Empty
  | g :: l => Cat g.Toks (bodyToks l)

def SMod.Toks (m : SMod) : List STok → Prop :=
  Cat (One .KW_MODULE) (Cat (OneP (Ident.Tok m.name)) (Cat (parsToks m.params) (Cat m.ports.Toks (Cat (One .SEMI) (Cat (bodyToks m.items) (Cat (One .KW_ENDMODULE) (labelToks m.label)))))))

/-- The modules of a source text. -/
def modsToks : List SMod → List STok → Prop
  | [] => Empty
  | m :: l => Cat m.Toks (modsToks l)

/-! ## Meaning -/

variable {V S M : Type} (A : Alg V) (B : SAlg V S) (N : MAlg V S M)

/-- A port is a wire if nothing else is written. -/
def SPortTy.eval : SPortTy → V
  | .plain => A.kw (c! "wire")
  | .range a b => A.param (A.kw (c! "wire")) [A.bin ":" (a.eval A) (b.eval A), A.nul]
  | .vec k => A.param (A.kw k.text) [A.nul, A.nul]
  | .vecRange k a b => A.param (A.kw k.text) [A.bin ":" (a.eval A) (b.eval A), A.nul]
  | .num k => A.kw k.text
  | .net k r => netEval A B k r

/-- A port without direction and type has those of the port before. -/
def portsEval (dir : Dir) (t : V) : List SPort → List (Port V)
  | [] => []
  | p :: l =>
    match p.head with
    | none => ⟨dir, {}, A.ident p.name, t, none⟩ :: portsEval dir t l
    | some (d, ty) => ⟨dirOf d, {}, A.ident p.name, ty.eval A B, none⟩ :: portsEval (dirOf d) (ty.eval A B) l

/-- A local parameter is a constant. -/
def SPar.eval (p : SPar) : List S :=
  (p.first :: p.more).map fun a => B.decl ⟨p.loc, false, false⟩ (A.ident a.1) (parTyEval A B p.ty) (some (a.2.eval A))

def parsEval : Option (SPar × List SPar) → List S
  | none => []
  | some (p, l) => (p :: l).flatMap (SPar.eval A B)

/-- LRM 23.2.2.1: in the old style the declaration of a port without type leaves it open. -/
def SPortTy.open_ : SPortTy → V
  | .plain => B.auto
  | t => t.eval A B

/-- The ports an item declares. -/
def SModItem.decls : SModItem → List (Ident × Port V)
  | .ports o t a l => (a :: l).map fun i => (i, ⟨dirOf (ioDir o), {}, A.ident i, t.open_ A B, none⟩)
  | _ => []

/-- A port of the old style: what the body declares for its name. -/
def portOf (decls : List (Ident × Port V)) (i : Ident) : Port V :=
  match decls.find? fun x => identName x.1 = identName i with
  | some x => x.2
  | none => ⟨.UNKNOWN, {}, A.ident i, B.auto, none⟩

def SPorts.eval (decls : List (Ident × Port V)) : SPorts → List (Port V)
  | .names a l => (a :: l).map (portOf A B decls)
  | p => portsEval A B .INOUT (A.kw (c! "wire")) p.all

/-- LRM 6.20.1: the parameters which an item declares; `hdr`: the header has a list of parameters. Then those of the body are local, and not parameters. -/
def SModItem.generics (hdr : Bool) : SModItem → List S
  | .item _ => []
  | .ports _ _ _ _ => []
  | .par t a l => if hdr then [] else (a :: l).map fun a => B.decl ⟨false, false, false⟩ (A.ident a.1) (parTyEval A B t) (some (a.2.eval A))

def SModItem.eval (hdr : Bool) : SModItem → List M
  | .item g => g.eval A B N
  | .ports _ _ _ _ => []
  | .par t a l => if hdr then (a :: l).map fun a => N.stm (B.decl ⟨true, false, false⟩ (A.ident a.1) (parTyEval A B t) (some (a.2.eval A))) else []

def SMod.eval (m : SMod) : M := N.module_ (A.ident m.name) (parsEval A B m.params ++ m.items.flatMap (SModItem.generics A B m.params.isSome))
  (m.ports.eval A B (m.items.flatMap (SModItem.decls A B))) (m.items.flatMap (SModItem.eval A B N m.params.isSome))

end Verif.Spec.SvLrm
