import Verif.Spec.VhdlText
import Verif.Spec.VhdlUnit
/-!
# Specification: sequential statements as token sequences (IEEE 1076-2008, 10) and their meaning

The types follow the productions of the LRM. `Toks s w` says that `w` is the token sequence of the statement `s`; `eval` is its meaning, relative to
arbitrary meanings of operators and statements.
-/
namespace Verif.Spec.Lrm
open Verif.Vhdl Verif.Spec

/-! ## Syntax -/

/-- LRM 10.5.1: targets of assignments. -/
inductive LTarget
  | name (n : LName)
  | agg (first : LElem) (more : List LElem)

/-- LRM 10.5.2.1: delay mechanisms. -/
inductive LDelay
  | none
  | transport
  | inertial
  | reject (e : LExpr)

/-- LRM 10.5.2.1: waveforms; the value of an element is an expression or `null` (also an expression here), followed by its delay. -/
inductive LWave
  | unaffected
  | elems (first : LExpr × Option LExpr) (more : List (LExpr × Option LExpr))

/-- LRM 10.5.3: `x when condition { else x when condition } [ else x ]`. -/
structure LCond (α : Type) where
  head : α × LExpr
  tail : List (α × LExpr)
  dflt : Option α

/-- LRM 9.3.3: `choice { | choice }`. -/
structure LChoices where
  head : LChoice
  tail : List LChoice

/-- LRM 10.5.4: `x when choices { , x when choices }`. -/
structure LSel (α : Type) where
  head : α × LChoices
  tail : List (α × LChoices)

/-- LRM 10.5, 10.6: assignments to signals and variables: simple, conditional (`Cond`), selected (`Sel`; `q`: `select ?`). -/
inductive LAssign
  | wave (t : LTarget) (d : LDelay) (w : LWave)
  | force (t : LTarget) (m : Option ForceMode) (e : LExpr)
  | release (t : LTarget) (m : Option ForceMode)
  | waveCond (t : LTarget) (d : LDelay) (c : LCond LWave)
  | forceCond (t : LTarget) (m : Option ForceMode) (c : LCond LExpr)
  | waveSel (e : LExpr) (q : Bool) (t : LTarget) (d : LDelay) (l : LSel LWave)
  | forceSel (e : LExpr) (q : Bool) (t : LTarget) (m : Option ForceMode) (l : LSel LExpr)
  | var (t : LTarget) (e : LExpr)
  | varCond (t : LTarget) (c : LCond LExpr)
  | varSel (e : LExpr) (q : Bool) (t : LTarget) (l : LSel LExpr)

/-- LRM 5.3.2.1: discrete ranges: a name (of a subtype, or an attribute `'range`), a range, a subtype with a range. -/
inductive LDiscr
  | name (n : LName)
  | range (a : LSimple) (downto : Bool) (b : LSimple)
  | sub (n : LName) (a : LSimple) (downto : Bool) (b : LSimple)

/-- LRM 10.10: iteration schemes. -/
inductive LIter
  | forever
  | while_ (c : LExpr)
  | for_ (i : Str) (d : LDiscr)

mutual
/-- LRM 10.1. -/
inductive LSeq
  | mk (label : Option Str) (s : LStm)
/-- LRM 10.2 to 10.14. No names behind `on`: there is no sensitivity clause. No arguments of a call: there are no parentheses.
`endLabel`: the label behind `end`. -/
inductive LStm
  | wait (on : List LName) (until_ for_ : Option LExpr)
  | assert_ (c : LExpr) (report severity : Option LExpr)
  | report (e : LExpr) (severity : Option LExpr)
  | assign (a : LAssign)
  | call (p : LName) (args : List LArg)
  | if_ (c : LExpr) (t : List LSeq) (elifs : List LElsIf) (f : LElse) (endLabel : Option Str)
  | case_ (q : Bool) (e : LExpr) (first : LAlt) (more : List LAlt) (endLabel : Option Str)
  | loop (it : LIter) (body : List LSeq) (endLabel : Option Str)
  | next (label : Option Str) (c : Option LExpr)
  | exit (label : Option Str) (c : Option LExpr)
  | ret (e : Option LExpr)
  | null_
inductive LElsIf
  | mk (c : LExpr) (l : List LSeq)
inductive LElse
  | none
  | some (l : List LSeq)
inductive LAlt
  | mk (c : LChoices) (l : List LSeq)
end

/-! ## Token sequences -/

/-- Nothing. -/
def Nil (w : List VTok) : Prop := w = []
/-- One after the other. -/
def Rep {α : Type} (T : α → List VTok → Prop) : List α → List VTok → Prop
  | [] => Nil
  | a :: l => Cat (T a) (Rep T l)
/-- If it is there. -/
def Opt' {α : Type} (T : α → List VTok → Prop) : Option α → List VTok → Prop
  | none => Nil
  | some a => T a
/-- A token that may be there. -/
def Flag (t : VT) : Bool → List VTok → Prop
  | false => Nil
  | true => One t
/-- A reserved word. -/
def Word (k : Kw) : List VTok → Prop := One (.kw k)
/-- An identifier. -/
def Ident (s : Str) : List VTok → Prop := OneP (NameLit.Tok (.ident s))
/-- Something behind a reserved word. -/
def After (k : Kw) {α : Type} (T : α → List VTok → Prop) (a : α) : List VTok → Prop := Cat (Word k) (T a)

def LTarget.Toks : LTarget → List VTok → Prop
  | .name n => n.Toks
  | .agg e l => Cat (One .LPAREN) (Cat e.Toks (Cat (elemsToks l) (One .RPAREN)))

def LDelay.Toks : LDelay → List VTok → Prop
  | .none => Nil
  | .transport => Word .TRANSPORT
  | .inertial => Word .INERTIAL
  | .reject e => Cat (Word .REJECT) (Cat e.Toks (Word .INERTIAL))

/-- A waveform element. -/
def elemToks (p : LExpr × Option LExpr) : List VTok → Prop := Cat p.1.Toks (Opt' (After .AFTER LExpr.Toks) p.2)

def LWave.Toks : LWave → List VTok → Prop
  | .unaffected => Word .UNAFFECTED
  | .elems h t => Cat (elemToks h) (Rep (fun p => Cat (One .COMMA) (elemToks p)) t)

/-- `x when condition` -/
def whenToks {α : Type} (T : α → List VTok → Prop) (p : α × LExpr) : List VTok → Prop := Cat (T p.1) (Cat (Word .WHEN) p.2.Toks)

def LCond.Toks {α : Type} (T : α → List VTok → Prop) (c : LCond α) : List VTok → Prop :=
  Cat (whenToks T c.head) (Cat (Rep (After .ELSE (whenToks T)) c.tail) (Opt' (After .ELSE T) c.dflt))

def LChoices.Toks (c : LChoices) : List VTok → Prop := Cat c.head.Toks (choicesToks c.tail)

/-- `x when choices` -/
def selToks {α : Type} (T : α → List VTok → Prop) (p : α × LChoices) : List VTok → Prop := Cat (T p.1) (Cat (Word .WHEN) p.2.Toks)

def LSel.Toks {α : Type} (T : α → List VTok → Prop) (c : LSel α) : List VTok → Prop :=
  Cat (selToks T c.head) (Rep (fun p => Cat (One .COMMA) (selToks T p)) c.tail)

/-- `in`, `out` -/
def modeToks : ForceMode → List VTok → Prop
  | .in_ => Word .IN
  | .out => Word .OUT

/-- `target <= ` and the rest. -/
def sigToks (t : LTarget) (p : List VTok → Prop) : List VTok → Prop := Cat t.Toks (Cat (One .CONASGN) (Cat p (One .SEMI)))
/-- `target := ` and the rest. -/
def varToks (t : LTarget) (p : List VTok → Prop) : List VTok → Prop := Cat t.Toks (Cat (One .VARASGN) (Cat p (One .SEMI)))
/-- `force`, its mode and what is forced. -/
def forceToks (m : Option ForceMode) (p : List VTok → Prop) : List VTok → Prop := Cat (Word .FORCE) (Cat (Opt' modeToks m) p)
/-- `with e select` -/
def withToks (e : LExpr) (q : Bool) (p : List VTok → Prop) : List VTok → Prop :=
  Cat (Word .WITH) (Cat e.Toks (Cat (Word .SELECT) (Cat (Flag .QUESTIONMARK q) p)))

def LAssign.Toks : LAssign → List VTok → Prop
  | .wave t d w => sigToks t (Cat d.Toks w.Toks)
  | .force t m e => sigToks t (forceToks m e.Toks)
  | .release t m => sigToks t (Cat (Word .RELEASE) (Opt' modeToks m))
  | .waveCond t d c => sigToks t (Cat d.Toks (c.Toks LWave.Toks))
  | .forceCond t m c => sigToks t (forceToks m (c.Toks LExpr.Toks))
  | .waveSel e q t d l => withToks e q (sigToks t (Cat d.Toks (l.Toks LWave.Toks)))
  | .forceSel e q t m l => withToks e q (sigToks t (forceToks m (l.Toks LExpr.Toks)))
  | .var t e => varToks t e.Toks
  | .varCond t c => varToks t (c.Toks LExpr.Toks)
  | .varSel e q t l => withToks e q (varToks t (l.Toks LExpr.Toks))

def LDiscr.Toks : LDiscr → List VTok → Prop
  | .name n => n.Toks
  | .range a d b => Cat a.Toks (Cat (One (dirTy d)) b.Toks)
  | .sub n a d b => Cat n.Toks (Cat (Word .RANGE) (Cat a.Toks (Cat (One (dirTy d)) b.Toks)))

def LIter.Toks : LIter → List VTok → Prop
  | .forever => Nil
  | .while_ c => Cat (Word .WHILE) c.Toks
  | .for_ i d => Cat (Word .FOR) (Cat (Ident i) (Cat (Word .IN) d.Toks))

/-- LRM 8.1, 9.3.4: a name of a procedure is a simple or a selected name. -/
def LName.isProc : LName → Bool
  | .lit (.ident _) => true
  | .sel _ (.lit (.ident _)) => true
  | _ => false

/-- `on a, b` -/
def onToks : List LName → List VTok → Prop
  | [] => Nil
  | n :: l => Cat (Word .ON) (Cat n.Toks (Rep (fun n => Cat (One .COMMA) n.Toks) l))

/-- `p`, `p (a, b)` -/
def callToks (p : LName) (args : List LArg) (w : List VTok) : Prop :=
  p.isProc = true ∧ match args with
    | [] => p.Toks w
    | a :: l => (LName.call p a l).Toks w

/-- `end x [ ? ] [ label ] ;` -/
def endToks (k : Kw) (q : Bool) (label : Option Str) : List VTok → Prop :=
  Cat (Word .END) (Cat (Word k) (Cat (Flag .QUESTIONMARK q) (Cat (Opt' Ident label) (One .SEMI))))

mutual
def LSeq.Toks : LSeq → List VTok → Prop
  | .mk l s => Cat (Opt' (fun l => Cat (Ident l) (One .COLON)) l) s.Toks
def seqsToks : List LSeq → List VTok → Prop
  | [] => Nil
  | s :: l => Cat s.Toks (seqsToks l)
def LStm.Toks : LStm → List VTok → Prop
  | .wait on u f => Cat (Word .WAIT) (Cat (onToks on) (Cat (Opt' (After .UNTIL LExpr.Toks) u) (Cat (Opt' (After .FOR LExpr.Toks) f) (One .SEMI))))
  | .assert_ c r s =>
    Cat (Word .ASSERT) (Cat c.Toks (Cat (Opt' (After .REPORT LExpr.Toks) r) (Cat (Opt' (After .SEVERITY LExpr.Toks) s) (One .SEMI))))
  | .report e s => Cat (Word .REPORT) (Cat e.Toks (Cat (Opt' (After .SEVERITY LExpr.Toks) s) (One .SEMI)))
  | .assign a => a.Toks
  | .call p args => Cat (callToks p args) (One .SEMI)
  | .if_ c t el f l => Cat (Word .IF) (Cat c.Toks (Cat (Word .THEN) (Cat (seqsToks t) (Cat (elsIfsToks el) (Cat f.Toks (endToks .IF false l))))))
  | .case_ q e a m l =>
    Cat (Word .CASE) (Cat (Flag .QUESTIONMARK q) (Cat e.Toks (Cat (Word .IS) (Cat a.Toks (Cat (altsToks m) (endToks .CASE q l))))))
  | .loop it b l => Cat it.Toks (Cat (Word .LOOP) (Cat (seqsToks b) (endToks .LOOP false l)))
  | .next l c => Cat (Word .NEXT) (Cat (Opt' Ident l) (Cat (Opt' (After .WHEN LExpr.Toks) c) (One .SEMI)))
  | .exit l c => Cat (Word .EXIT) (Cat (Opt' Ident l) (Cat (Opt' (After .WHEN LExpr.Toks) c) (One .SEMI)))
  | .ret e => Cat (Word .RETURN) (Cat (Opt' LExpr.Toks e) (One .SEMI))
  | .null_ => Cat (Word .NULL) (One .SEMI)
def elsIfsToks : List LElsIf → List VTok → Prop
  | [] => Nil
  | .mk c l :: r => Cat (Word .ELSIF) (Cat c.Toks (Cat (Word .THEN) (Cat (seqsToks l) (elsIfsToks r))))
def LElse.Toks : LElse → List VTok → Prop
  | .none => Nil
  | .some l => Cat (Word .ELSE) (seqsToks l)
def LAlt.Toks : LAlt → List VTok → Prop
  | .mk c l => Cat (Word .WHEN) (Cat c.Toks (Cat (One .ARROW) (seqsToks l)))
def altsToks : List LAlt → List VTok → Prop
  | [] => Nil
  | a :: r => Cat a.Toks (altsToks r)
end

/-- Tokens which stand behind a sequence of statements (LRM 4.3, 10.8, 10.9, 10.10, 11.3). -/
def afterStms : List VT := [.kw .END, .kw .ELSE, .kw .ELSIF, .kw .WHEN]

/-! ## Meaning -/

variable {V S : Type} (A : Alg V) (B : SAlg V S)

def LTarget.eval : LTarget → V
  | .name n => n.eval A
  | .agg e l => groupVal A e.isPos (e.eval A) (elemsEval A l)

def LDelay.eval : LDelay → S → S
  | .none, s => s
  | .transport, s => B.delayed true Option.none s
  | .inertial, s => B.delayed false Option.none s
  | .reject e, s => B.delayed false (some (e.eval A)) s

/-- One element without delay is its value. -/
def LWave.eval : LWave → V
  | .unaffected => A.unaffected
  | .elems (e, none) [] => e.eval A
  | .elems h t => A.wave ((h :: t).map fun p => (p.1.eval A, p.2.map (LExpr.eval A)))

/-- The value with the first true condition, otherwise the one behind the last `else`, otherwise nothing changes. -/
def LCond.eval {α : Type} (val : α → V) (c : LCond α) : V :=
  firstTrue A.truth (match c.dflt with | none => A.unaffected | some x => val x) ((c.head :: c.tail).map fun p => (val p.1, p.2.eval A))

def LChoice.isOthers : LChoice → Bool
  | .others => true
  | _ => false

/-- The choices. -/
def LChoices.list (c : LChoices) : List LChoice := c.head :: c.tail

/-- One pair of choice and statement for each choice but `others`. -/
def altPairs (l : List (LChoices × S)) : List (V × S) :=
  l.flatMap fun p => (p.1.list.filter fun c => !c.isOthers).map fun c => (c.eval A, p.2)

/-- The alternative for `others`. -/
def altOthers : List (LChoices × S) → Option S
  | [] => none
  | p :: l => if p.1.list.any LChoice.isOthers then some p.2 else altOthers l

/-- A selected assignment is a case statement of assignments (LRM 10.5.4). -/
def LSel.eval {α : Type} (q : Bool) (e : LExpr) (stm : α → S) (c : LSel α) : S :=
  let l := (c.head :: c.tail).map fun p => (p.2, stm p.1)
  B.case q (e.eval A) (altPairs A l) (altOthers l)

def LAssign.eval : LAssign → S
  | .wave t d w => d.eval A B (B.sig (t.eval A) (w.eval A))
  | .force t m e => B.force m (t.eval A) (e.eval A)
  | .release t m => B.release m (t.eval A)
  | .waveCond t d c => d.eval A B (B.sig (t.eval A) (c.eval A (LWave.eval A)))
  | .forceCond t m c => B.force m (t.eval A) (c.eval A (LExpr.eval A))
  | .waveSel e q t d l => l.eval A B q e fun w => d.eval A B (B.sig (t.eval A) (w.eval A))
  | .forceSel e q t m l => l.eval A B q e fun x => B.force m (t.eval A) (x.eval A)
  | .var t e => B.var (t.eval A) (e.eval A)
  | .varCond t c => B.var (t.eval A) (c.eval A (LExpr.eval A))
  | .varSel e q t l => l.eval A B q e fun x => B.var (t.eval A) (x.eval A)

def LDiscr.eval : LDiscr → V
  | .name n => n.eval A
  | .range a d b => A.bin (dirSym d) (a.eval A) (b.eval A)
  | .sub n a d b => A.bin "range" (n.eval A) (A.bin (dirSym d) (a.eval A) (b.eval A))

def LIter.eval : LIter → S → S
  | .forever, b => B.forever b
  | .while_ c, b => B.while_ (c.eval A) b
  | .for_ i d, b => B.for_ i (d.eval A) b

mutual
def LSeq.eval : LSeq → S
  | .mk none s => s.eval
  | .mk (some l) s => B.label l s.eval
def seqsEval : List LSeq → List S
  | [] => []
  | s :: l => s.eval :: seqsEval l
def LStm.eval : LStm → S
  | .wait on u f => B.wait (on.map (LName.eval A)) (u.map (LExpr.eval A)) (f.map (LExpr.eval A))
  | .assert_ c r s => B.assert_ (c.eval A) (r.map (LExpr.eval A)) (s.map (LExpr.eval A))
  | .report e s => B.report (e.eval A) (s.map (LExpr.eval A))
  | .assign a => a.eval A B
  | .call p args => B.call (p.eval A) (argsEval A args)
  | .if_ c t el f _ => B.ite (c.eval A) (B.block (seqsEval t)) (elsIfsEval el f.eval)
  | .case_ q e a m _ => B.case q (e.eval A) (altPairs A (a.eval :: altsEval m)) (altOthers (a.eval :: altsEval m))
  | .loop it b _ => it.eval A B (B.block (seqsEval b))
  | .next l c => B.next l (c.map (LExpr.eval A))
  | .exit l c => B.exit l (c.map (LExpr.eval A))
  | .ret e => B.ret (e.map (LExpr.eval A))
  | .null_ => B.nop
/-- `elsif` is an `if` in the `else` branch. -/
def elsIfsEval : List LElsIf → Option S → Option S
  | [], f => f
  | .mk c l :: r, f => some (B.ite (c.eval A) (B.block (seqsEval l)) (elsIfsEval r f))
def LElse.eval : LElse → Option S
  | .none => Option.none
  | .some l => Option.some (B.block (seqsEval l))
def LAlt.eval : LAlt → LChoices × S
  | .mk c l => (c, B.block (seqsEval l))
def altsEval : List LAlt → List (LChoices × S)
  | [] => []
  | a :: r => a.eval :: altsEval r
end

end Verif.Spec.Lrm
