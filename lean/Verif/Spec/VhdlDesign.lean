import Verif.Spec.VhdlSeq
/-!
# Specification: declarations, concurrent statements and design units as token sequences (IEEE 1076-2008, 3, 4, 6, 11, 13) and their meaning

As for sequential statements (Verif/Spec/VhdlSeq.lean): the types follow the productions of the LRM, `Toks` are the token sequences, `eval` is the
meaning, relative to arbitrary meanings of operators and statements. Left out: physical, access, file and protected types, files, attributes,
groups, generics of packages and subprograms, instances of packages and subprograms, configurations and contexts, guarded blocks and blocks with
ports, postponed and guarded statements, statements of entities.
-/
namespace Verif.Spec.Lrm
open Verif.Vhdl Verif.Spec

/-- Several, separated by a token; at least one. -/
def Sep {α : Type} (t : VT) (T : α → List VTok → Prop) : List α → List VTok → Prop
  | [] => fun _ => False
  | a :: l => Cat (T a) (Rep (fun x => Cat (One t) (T x)) l)

/-! ## Objects and interfaces -/

/-- LRM 6.3: `[ resolution ] type_mark [ range ]`. Index constraints `t(7 downto 0)`, `t(a'range)` look like a part of the name. -/
structure LSub where
  resol : Option LName
  mark : LName
  range : Option (LSimple × Bool × LSimple)

/-- LRM 6.4.2: names, type and value of a declaration of objects. -/
structure LVars where
  names : List Str
  type : LSub
  init : Option LExpr

/-- LRM 6.5.2: declarations of interface objects; `kw`: the reserved word `signal`. -/
inductive LIntf
  | const (v : LVars) (in_ : Bool)
  | sig (kw : Bool) (v : LVars) (m : Option Mode)
  | var (v : LVars) (m : Option Mode)

/-- `range a to b` -/
def rangeToks (r : LSimple × Bool × LSimple) : List VTok → Prop := Cat (Word .RANGE) (Cat r.1.Toks (Cat (One (dirTy r.2.1)) r.2.2.Toks))

def LSub.Toks (s : LSub) : List VTok → Prop := Cat (Opt' LName.Toks s.resol) (Cat s.mark.Toks (Opt' rangeToks s.range))

/-- `:= e` -/
def initToks (e : LExpr) : List VTok → Prop := Cat (One .VARASGN) e.Toks

/-- `a, b : mode type := value` -/
def LVars.Toks (mode : List VTok → Prop) (v : LVars) : List VTok → Prop :=
  Cat (Sep .COMMA Ident v.names) (Cat (One .COLON) (Cat mode (Cat v.type.Toks (Opt' initToks v.init))))

/-- The words for modes. -/
def modeKw : Mode → Kw
  | .in_ => .IN
  | .out => .OUT
  | .inout => .INOUT
  | .buffer => .BUFFER
  | .linkage => .LINKAGE

def optMode (m : Option Mode) : List VTok → Prop := Opt' (fun m => Word (modeKw m)) m

def LIntf.Toks : LIntf → List VTok → Prop
  | .const v i => Cat (Word .CONSTANT) (v.Toks (Flag (.kw .IN) i))
  | .sig kw v m => Cat (Flag (.kw .SIGNAL) kw) (v.Toks (optMode m))
  | .var v m => Cat (Word .VARIABLE) (v.Toks (optMode m))

/-- `( interface list )`; nothing: there are no parentheses. -/
def paramsToks : List LIntf → List VTok → Prop
  | [] => Nil
  | i :: l => Cat (One .LPAREN) (Cat (Sep .SEMI LIntf.Toks (i :: l)) (One .RPAREN))

/-- `generic ( interface list ) ;`, `port ( interface list ) ;` -/
def clauseToks (k : Kw) : List LIntf → List VTok → Prop
  | [] => Nil
  | i :: l => Cat (Word k) (Cat (One .LPAREN) (Cat (Sep .SEMI LIntf.Toks (i :: l)) (Cat (One .RPAREN) (One .SEMI))))

/-! ## Types -/

/-- LRM 5.2 to 5.3: enumerations, integers and floating point numbers, arrays, records. -/
inductive LTypeDef
  | enum (l : List EnumLit)
  | range (r : LSimple × Bool × LSimple)
  | unbounded (l : List LName) (elem : LSub)
  | constrained (l : List LDiscr) (elem : LSub)
  | record (first : List Str × LSub) (more : List (List Str × LSub)) (endName : Option Str)

/-- LRM 5.2.2.1 -/
def EnumLit.Tok : EnumLit → List VTok → Prop
  | .ident s => Ident s
  | .chr s => OneT .CHARACTER_LITERAL s

/-- `t range <>` -/
def openToks (n : LName) : List VTok → Prop := Cat n.Toks (Cat (Word .RANGE) (One .BOX))

/-- `a, b : t ;` -/
def elementToks (e : List Str × LSub) : List VTok → Prop := Cat (Sep .COMMA Ident e.1) (Cat (One .COLON) (Cat e.2.Toks (One .SEMI)))

def LTypeDef.Toks : LTypeDef → List VTok → Prop
  | .enum l => Cat (One .LPAREN) (Cat (Sep .COMMA EnumLit.Tok l) (One .RPAREN))
  | .range r => rangeToks r
  | .unbounded l e => Cat (Word .ARRAY) (Cat (One .LPAREN) (Cat (Sep .COMMA openToks l) (Cat (One .RPAREN) (Cat (Word .OF) e.Toks))))
  | .constrained l e => Cat (Word .ARRAY) (Cat (One .LPAREN) (Cat (Sep .COMMA LDiscr.Toks l) (Cat (One .RPAREN) (Cat (Word .OF) e.Toks))))
  | .record a l n => Cat (Word .RECORD) (Cat (elementToks a) (Cat (Rep elementToks l) (Cat (Word .END) (Cat (Word .RECORD) (Opt' Ident n)))))

/-! ## Declarations -/

/-- LRM 4.2.1: specifications of subprograms; `purity`: the reserved word `pure` (`some false`) or `impure` (`some true`). -/
inductive LSpec
  | proc (d : Designator) (params : List LIntf)
  | func (purity : Option Bool) (d : Designator) (params : List LIntf) (ret : LName)

/-- LRM 12.4: `work.p.all`. -/
structure LPath where
  head : Str
  rest : List Suffix

/-- Declarations. `kw`, `endName`: the optional reserved word and name behind `end`. -/
inductive LDecl
  | subprogram (s : LSpec)
  | package (n : Str) (l : List LDecl) (kw : Bool) (endName : Option Str)
  | typeIncomplete (n : Str)
  | type (n : Str) (t : LTypeDef)
  | subtype (n : Str) (s : LSub)
  | constant (v : LVars)
  | variable (shared : Bool) (v : LVars)
  | signal (v : LVars)
  | alias_ (d : NameLit) (t : Option LSub) (n : LName)
  | use (l : List LPath)
  | subBody (s : LSpec) (ds : List LDecl) (ss : List LSeq) (kw : Option Kw) (endName : Option Designator)
  | packageBody (n : Str) (l : List LDecl) (kw : Bool) (endName : Option Str)
  | component (n : Str) (is : Bool) (generics ports : List LIntf) (endName : Option Str)

/-- Where declarations stand: in an entity (LRM 3.2.3), in an architecture or block (3.3.2), in a package (4.7), in a process, subprogram or package
body (4.3, 4.8, 11.3). -/
inductive Place | entity | block | package | body
deriving DecidableEq

def Designator.Tok : Designator → List VTok → Prop
  | .ident s => Ident s
  | .opSymbol s => OneT .STRING_LITERAL s

def purityToks : Bool → List VTok → Prop
  | false => Word .PURE
  | true => Word .IMPURE

def LSpec.Toks : LSpec → List VTok → Prop
  | .proc d l => Cat (Word .PROCEDURE) (Cat (Designator.Tok d) (paramsToks l))
  | .func p d l r =>
    Cat (Opt' purityToks p) (Cat (Word .FUNCTION) (Cat (Designator.Tok d) (Cat (paramsToks l) (Cat (Word .RETURN) r.Toks))))

def LPath.Toks (p : LPath) : List VTok → Prop := Cat (Ident p.head) (Rep (fun s => Cat (One .DOT) (OneP (Suffix.Tok s))) p.rest)

/-- `use a.b, c.d ;` -/
def useToks (l : List LPath) : List VTok → Prop := Cat (Word .USE) (Cat (Sep .COMMA LPath.Toks l) (One .SEMI))

/-- The reserved words which can stand behind the `end` of a subprogram. -/
def subKind (k : Kw) (w : List VTok) : Prop := (k = .PROCEDURE ∨ k = .FUNCTION) ∧ Word k w

/-- `end [ package ] [ name ] ;` with optional reserved words -/
def endOpt (k : List VTok → Prop) (b : Bool) (n : Option Str) : List VTok → Prop :=
  Cat (Word .END) (Cat (match b with | false => Nil | true => k) (Cat (Opt' Ident n) (One .SEMI)))

mutual
def LDecl.Toks (p : Place) : LDecl → List VTok → Prop
  | .subprogram s => Cat s.Toks (One .SEMI)
  | .package n l kw e => Cat (Word .PACKAGE) (Cat (Ident n) (Cat (Word .IS) (Cat (declsToks .package l) (endOpt (Word .PACKAGE) kw e))))
  | .typeIncomplete n => Cat (Word .TYPE) (Cat (Ident n) (One .SEMI))
  | .type n t => Cat (Word .TYPE) (Cat (Ident n) (Cat (Word .IS) (Cat t.Toks (One .SEMI))))
  | .subtype n s => Cat (Word .SUBTYPE) (Cat (Ident n) (Cat (Word .IS) (Cat s.Toks (One .SEMI))))
  | .constant v => Cat (Word .CONSTANT) (Cat (v.Toks Nil) (One .SEMI))
  | .variable sh v => Cat (Flag (.kw .SHARED) sh) (Cat (Word .VARIABLE) (Cat (v.Toks Nil) (One .SEMI)))
  | .signal v => fun w => p ≠ .body ∧ Cat (Word .SIGNAL) (Cat (v.Toks Nil) (One .SEMI)) w
  | .alias_ d t n =>
    Cat (Word .ALIAS) (Cat (OneP (NameLit.Tok d)) (Cat (Opt' (fun t : LSub => Cat (One .COLON) t.Toks) t) (Cat (Word .IS) (Cat n.Toks (One .SEMI)))))
  | .use l => useToks l
  | .subBody s ds ss kw e => fun w => p ≠ .package ∧
    Cat s.Toks (Cat (Word .IS) (Cat (declsToks .body ds) (Cat (Word .BEGIN) (Cat (seqsToks ss) (Cat (Word .END) (Cat (Opt' subKind kw)
      (Cat (Opt' Designator.Tok e) (One .SEMI)))))))) w
  | .packageBody n l kw e => fun w => p ≠ .package ∧
    Cat (Word .PACKAGE) (Cat (Word .BODY) (Cat (Ident n) (Cat (Word .IS) (Cat (declsToks .body l)
      (endOpt (Cat (Word .PACKAGE) (Word .BODY)) kw e))))) w
  | .component n is g q e => fun w => (p = .block ∨ p = .package) ∧
    Cat (Word .COMPONENT) (Cat (Ident n) (Cat (Flag (.kw .IS) is) (Cat (clauseToks .GENERIC g) (Cat (clauseToks .PORT q)
      (Cat (Word .END) (Cat (Word .COMPONENT) (Cat (Opt' Ident e) (One .SEMI)))))))) w
def declsToks (p : Place) : List LDecl → List VTok → Prop
  | [] => Nil
  | d :: l => Cat (LDecl.Toks p d) (declsToks p l)
end

/-! ## Meaning of declarations -/

section
variable {V S : Type} (A : Alg V) (B : SAlg V S)

/-- `a to b`, `a downto b` -/
def rangeEval (r : LSimple × Bool × LSimple) : V := A.bin (dirSym r.2.1) (r.1.eval A) (r.2.2.eval A)

def LSub.eval (s : LSub) : V :=
  let t := match s.range with
    | none => s.mark.eval A
    | some r => A.bin "range" (s.mark.eval A) (rangeEval A r)
  match s.resol with
  | none => t
  | some r => A.bin "resolved" (r.eval A) t

/-- One object for each name. -/
def LVars.eval (f : Str → V → Option V → S) (v : LVars) : List S := v.names.map fun n => f n (v.type.eval A) (v.init.map (LExpr.eval A))

/-- The class of an interface object that is declared without the word for its class (LRM 6.5.2). -/
def classOf : ICtx → Mode → IKind
  | .generic, _ => .constant
  | .port, m => .signal m
  | .param, .in_ => .constant
  | .param, m => .variable m

/-- Without mode: `in` (LRM 6.5.2). -/
def LIntf.eval (c : ICtx) : LIntf → List S
  | .const v _ => v.eval A (B.intf .constant)
  | .sig true v m => v.eval A (B.intf (.signal (m.getD .in_)))
  | .sig false v m => v.eval A (B.intf (classOf c (m.getD .in_)))
  | .var v m => v.eval A (B.intf (.variable (m.getD .in_)))

def LTypeDef.eval (n : Str) : LTypeDef → S
  | .enum l => B.typeEnum n (l.map fun x => match x with | .ident s => .name s | .chr s => .chr (A.lit (.chr s)))
  | .range r => B.typeRange n (rangeEval A r)
  | .unbounded l e => B.typeArray n (e.eval A) (l.map fun x => A.bin "range" (x.eval A) A.opn)
  | .constrained l e => B.typeArray n (e.eval A) (l.map (LDiscr.eval A))
  | .record a l _ => B.typeRecord n ((a :: l).flatMap fun e => e.1.map fun x => (x, e.2.eval A))

/-- The name of a subprogram, and if it is an operator. -/
def Designator.text : Designator → Str × Bool
  | .ident s => (s, false)
  | .opSymbol s => (s, true)

def LSpec.eval : LSpec → SubHead V S
  | .proc d l => ⟨(Designator.text d).1, (Designator.text d).2, false, [], l.flatMap (LIntf.eval A B .param), none⟩
  | .func p d l r => ⟨(Designator.text d).1, (Designator.text d).2, p = some true, [], l.flatMap (LIntf.eval A B .param), some (r.eval A)⟩

def LPath.eval (p : LPath) : S := B.use (A.lit (.ident p.head) :: p.rest.map (evSuffix A))

/-- The text of a name. -/
def litText : NameLit → Str
  | .ident s => s
  | .opSymbol s => s
  | .chr s => s

mutual
def LDecl.eval : LDecl → List S
  | .subprogram s => [B.subprogram (s.eval A B) none]
  | .package n l _ _ => [B.package true n [] (declsEval l)]
  | .typeIncomplete n => [B.typeIncomplete n]
  | .type n t => [t.eval A B n]
  | .subtype n s => [B.subtype n (s.eval A)]
  | .constant v => v.eval A (B.decl .constant)
  | .variable sh v => v.eval A (B.decl (.variable sh))
  | .signal v => v.eval A (B.decl .signal)
  | .alias_ d t n => [B.alias_ (litText d) (t.map (LSub.eval A)) (n.eval A)]
  | .use l => l.map (LPath.eval A B)
  | .subBody s ds ss _ _ => [B.subprogram (s.eval A B) (some (declsEval ds ++ seqsEval A B ss))]
  | .packageBody n l _ _ => [B.package false n [] (declsEval l)]
  | .component n _ g p _ => [B.component n (g.flatMap (LIntf.eval A B .generic)) (p.flatMap (LIntf.eval A B .port))]
def declsEval : List LDecl → List S
  | [] => []
  | d :: l => d.eval ++ declsEval l
end

end

/-! ## Concurrent statements -/

/-- LRM 11.3: sensitivity lists of processes. -/
inductive LSens
  | none
  | all
  | names (first : LName) (more : List LName)

/-- LRM 11.7.1: what is instantiated. -/
inductive LUnit
  | component (kw : Bool) (n : LName)
  | entity (n : LName)
  | config (n : LName)

mutual
/-- LRM 11.1 to 11.9. -/
inductive LConc
  | process (label : Option Str) (sens : LSens) (is : Bool) (ds : List LDecl) (ss : List LSeq) (endLabel : Option Str)
  | call (label : Option Str) (p : LName) (args : List LArg)
  | assert_ (label : Option Str) (c : LExpr) (report severity : Option LExpr)
  | wave (label : Option Str) (t : LTarget) (d : LDelay) (w : LWave)
  | waveCond (label : Option Str) (t : LTarget) (d : LDelay) (c : LCond LWave)
  | waveSel (label : Option Str) (e : LExpr) (q : Bool) (t : LTarget) (d : LDelay) (l : LSel LWave)
  | block (label : Str) (is : Bool) (ds : List LDecl) (ss : List LConc) (endLabel : Option Str)
  | inst (label : Str) (u : LUnit) (generics ports : List LArg)
  | forGen (label : Str) (i : Str) (d : LDiscr) (b : LBody) (endLabel : Option Str)
  | ifGen (label : Str) (c : LGen) (elifs : List LGen) (f : LGenElse) (endLabel : Option Str)
  | caseGen (label : Str) (e : LExpr) (first : LGenAlt) (more : List LGenAlt) (endLabel : Option Str)
/-- A condition with its body; `label`: the label of the alternative. -/
inductive LGen
  | mk (label : Option Str) (c : LExpr) (b : LBody)
inductive LGenElse
  | none
  | some (label : Option Str) (b : LBody)
inductive LGenAlt
  | mk (label : Option Str) (c : LChoices) (b : LBody)
/-- LRM 11.9: the body of a generate statement: statements, or declarations, `begin`, statements and perhaps `end [ label ] ;`. -/
inductive LBody
  | plain (ss : List LConc)
  | full (ds : List LDecl) (ss : List LConc) (fin : Option (Option Str))
end

def LSens.Toks : LSens → List VTok → Prop
  | .none => Nil
  | .all => Cat (One .LPAREN) (Cat (Word .ALL) (One .RPAREN))
  | .names n l => Cat (One .LPAREN) (Cat (Sep .COMMA LName.Toks (n :: l)) (One .RPAREN))

/-- `label :` -/
def labelToks (l : Option Str) : List VTok → Prop := Opt' (fun l => Cat (Ident l) (One .COLON)) l

/-- A name of a component, an entity or a configuration is a simple or a selected name. -/
def unitName (n : LName) (w : List VTok) : Prop := n.isProc = true ∧ n.Toks w

def LUnit.Toks : LUnit → List VTok → Prop
  | .component kw n => Cat (Flag (.kw .COMPONENT) kw) (unitName n)
  | .entity n => Cat (Word .ENTITY) (unitName n)
  | .config n => Cat (Word .CONFIGURATION) (unitName n)

/-- `generic map ( … )`, `port map ( … )` -/
def mapToks (k : Kw) : List LArg → List VTok → Prop
  | [] => Nil
  | a :: l => Cat (Word k) (Cat (Word .MAP) (Cat (One .LPAREN) (Cat a.Toks (Cat (argsToks l) (One .RPAREN)))))

/-- `end [ label ] ;` -/
def finToks (l : Option Str) : List VTok → Prop := Cat (Word .END) (Cat (Opt' Ident l) (One .SEMI))

mutual
def LConc.Toks : LConc → List VTok → Prop
  | .process l s is ds ss e => Cat (labelToks l) (Cat (Word .PROCESS) (Cat s.Toks (Cat (Flag (.kw .IS) is) (Cat (declsToks .body ds)
      (Cat (Word .BEGIN) (Cat (seqsToks ss) (endToks .PROCESS false e)))))))
  | .call l p args => Cat (labelToks l) (Cat (callToks p args) (One .SEMI))
  | .assert_ l c r s => Cat (labelToks l) (Cat (Word .ASSERT) (Cat c.Toks (Cat (Opt' (After .REPORT LExpr.Toks) r)
      (Cat (Opt' (After .SEVERITY LExpr.Toks) s) (One .SEMI)))))
  | .wave l t d w => Cat (labelToks l) (LAssign.wave t d w).Toks
  | .waveCond l t d c => Cat (labelToks l) (LAssign.waveCond t d c).Toks
  | .waveSel l e q t d s => Cat (labelToks l) (LAssign.waveSel e q t d s).Toks
  | .block l is ds ss e => Cat (labelToks (some l)) (Cat (Word .BLOCK) (Cat (Flag (.kw .IS) is) (Cat (declsToks .block ds) (Cat (Word .BEGIN)
      (Cat (concsToks ss) (endToks .BLOCK false e))))))
  | .inst l u g p => Cat (labelToks (some l)) (Cat u.Toks (Cat (mapToks .GENERIC g) (Cat (mapToks .PORT p) (One .SEMI))))
  | .forGen l i d b e => Cat (labelToks (some l)) (Cat (Word .FOR) (Cat (Ident i) (Cat (Word .IN) (Cat d.Toks (Cat (Word .GENERATE) (Cat b.Toks
      (endToks .GENERATE false e)))))))
  | .ifGen l c el f e => Cat (labelToks (some l)) (Cat (Word .IF) (Cat c.Toks (Cat (gensToks el) (Cat f.Toks (endToks .GENERATE false e)))))
  | .caseGen l x a m e => Cat (labelToks (some l)) (Cat (Word .CASE) (Cat x.Toks (Cat (Word .GENERATE) (Cat a.Toks (Cat (genAltsToks m)
      (endToks .GENERATE false e))))))
def concsToks : List LConc → List VTok → Prop
  | [] => Nil
  | c :: l => Cat c.Toks (concsToks l)
/-- Behind `if` or `elsif`. -/
def LGen.Toks : LGen → List VTok → Prop
  | .mk l c b => Cat (labelToks l) (Cat c.Toks (Cat (Word .GENERATE) b.Toks))
def gensToks : List LGen → List VTok → Prop
  | [] => Nil
  | g :: l => Cat (Cat (Word .ELSIF) g.Toks) (gensToks l)
def LGenElse.Toks : LGenElse → List VTok → Prop
  | .none => Nil
  | .some l b => Cat (Word .ELSE) (Cat (labelToks l) (Cat (Word .GENERATE) b.Toks))
def LGenAlt.Toks : LGenAlt → List VTok → Prop
  | .mk l c b => Cat (Word .WHEN) (Cat (labelToks l) (Cat c.Toks (Cat (One .ARROW) b.Toks)))
def genAltsToks : List LGenAlt → List VTok → Prop
  | [] => Nil
  | a :: l => Cat a.Toks (genAltsToks l)
def LBody.Toks : LBody → List VTok → Prop
  | .plain ss => concsToks ss
  | .full ds ss f => Cat (declsToks .block ds) (Cat (Word .BEGIN) (Cat (concsToks ss) (Opt' finToks f)))
end

section
variable {V S : Type} (A : Alg V) (B : SAlg V S)

def LSens.eval : LSens → Option (Option (List V))
  | .none => Option.none
  | .all => some Option.none
  | .names n l => some (some ((n :: l).map (LName.eval A)))

/-- A label. -/
def labelled (l : Option Str) (s : S) : S := match l with
  | none => s
  | some l => B.label l s

/-- The label of an alternative of a generate statement. -/
def altLabelled (l : Option Str) (s : S) : S := match l with
  | none => s
  | some l => B.altLabel l s

def LUnit.eval : LUnit → InstKind × V
  | .component _ n => (.component, n.eval A)
  | .entity n => (.entity none, n.eval A)
  | .config n => (.config, n.eval A)

mutual
def LConc.eval : LConc → S
  | .process l s _ ds ss _ => labelled B l (B.process (s.eval A) (declsEval A B ds ++ seqsEval A B ss))
  | .call l p args => labelled B l (B.call (p.eval A) (argsEval A args))
  | .assert_ l c r s => labelled B l (B.assert_ (c.eval A) (r.map (LExpr.eval A)) (s.map (LExpr.eval A)))
  | .wave l t d w => labelled B l ((LAssign.wave t d w).eval A B)
  | .waveCond l t d c => labelled B l ((LAssign.waveCond t d c).eval A B)
  | .waveSel l e q t d s => labelled B l ((LAssign.waveSel e q t d s).eval A B)
  | .block l _ ds ss _ => B.label l (B.cblock none [] [] (declsEval A B ds ++ concsEval ss))
  | .inst l u g p => B.inst l (u.eval A).1 (u.eval A).2 (argsEval A g) (argsEval A p)
  | .forGen l i d b _ => B.label l (B.forGen i (d.eval A) b.eval)
  | .ifGen l c el f _ => B.label l (c.eval (gensEval el f.eval))
  | .caseGen l x a m _ => B.label l (B.caseGen (x.eval A) (altPairs A (a.eval :: genAltsEval m)) (altOthers (a.eval :: genAltsEval m)))
def concsEval : List LConc → List S
  | [] => []
  | c :: l => c.eval :: concsEval l
/-- With what stands behind `else`. -/
def LGen.eval : LGen → Option S → S
  | .mk l c b, f => B.ifGen (c.eval A) (altLabelled B l b.eval) f
def gensEval : List LGen → Option S → Option S
  | [], f => f
  | g :: l, f => some (g.eval (gensEval l f))
def LGenElse.eval : LGenElse → Option S
  | .none => Option.none
  | .some l b => Option.some (altLabelled B l b.eval)
def LGenAlt.eval : LGenAlt → LChoices × S
  | .mk l c b => (c, altLabelled B l b.eval)
def genAltsEval : List LGenAlt → List (LChoices × S)
  | [] => []
  | a :: l => a.eval :: genAltsEval l
def LBody.eval : LBody → S
  | .plain ss => B.gbody (concsEval ss)
  | .full ds ss _ => B.gbody (declsEval A B ds ++ concsEval ss)
end

end

/-! ## Design units -/

/-- LRM 13.1: library units. -/
inductive LLib
  | entity (n : Str) (generics ports : List LIntf) (ds : List LDecl) (kw : Bool) (endName : Option Str)
  | arch (n : Str) (e : LName) (ds : List LDecl) (ss : List LConc) (kw : Bool) (endName : Option Str)
  | package (n : Str) (ds : List LDecl) (kw : Bool) (endName : Option Str)
  | packageBody (n : Str) (ds : List LDecl) (kw : Bool) (endName : Option Str)

/-- LRM 13.2, 12.4: context items. -/
inductive LCtx
  | library (l : List Str)
  | use (l : List LPath)

/-- LRM 13.1: design units. -/
structure LDesign where
  ctx : List LCtx
  unit : LLib

def LCtx.Toks : LCtx → List VTok → Prop
  | .library l => Cat (Word .LIBRARY) (Cat (Sep .COMMA Ident l) (One .SEMI))
  | .use l => useToks l

def LLib.Toks : LLib → List VTok → Prop
  | .entity n g p ds kw e => Cat (Word .ENTITY) (Cat (Ident n) (Cat (Word .IS) (Cat (clauseToks .GENERIC g) (Cat (clauseToks .PORT p)
      (Cat (declsToks .entity ds) (endOpt (Word .ENTITY) kw e))))))
  | .arch n x ds ss kw e => Cat (Word .ARCHITECTURE) (Cat (Ident n) (Cat (Word .OF) (Cat (unitName x) (Cat (Word .IS) (Cat (declsToks .block ds)
      (Cat (Word .BEGIN) (Cat (concsToks ss) (endOpt (Word .ARCHITECTURE) kw e))))))))
  | .package n l kw e => (LDecl.package n l kw e).Toks .block
  | .packageBody n l kw e => (LDecl.packageBody n l kw e).Toks .block

def LDesign.Toks (u : LDesign) : List VTok → Prop := Cat (Rep LCtx.Toks u.ctx) u.unit.Toks

/-- A design file. -/
def fileToks : List LDesign → List VTok → Prop := Rep LDesign.Toks

section
variable {V S : Type} (A : Alg V) (B : SAlg V S)

def LCtx.eval : LCtx → List S
  | .library l => l.map B.library
  | .use l => l.map (LPath.eval A B)

def LLib.eval : LLib → S
  | .entity n g p ds _ _ => B.entity n (g.flatMap (LIntf.eval A B .generic)) (p.flatMap (LIntf.eval A B .port)) (declsEval A B ds)
  | .arch n x ds ss _ _ => B.arch n (x.eval A) (declsEval A B ds ++ concsEval A B ss)
  | .package n l _ _ => B.package true n [] (declsEval A B l)
  | .packageBody n l _ _ => B.package false n [] (declsEval A B l)

/-- The library and use clauses and the unit, in order. -/
def LDesign.eval (u : LDesign) : List S := u.ctx.flatMap (LCtx.eval A B) ++ [u.unit.eval A B]

def fileEval (l : List LDesign) : List S := l.flatMap (LDesign.eval A B)

end

end Verif.Spec.Lrm
