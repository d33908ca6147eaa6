import Verif.Vhdl.Token
import Verif.Spec.VhdlSem
/-!
# Specification: the expressions of VHDL (IEEE 1076-2008, 8 and 9)

Expressions by the levels of the LRM: the rules for precedence and associativity are in the types (`factor`, `term`,
`simple_expression`, `shift_expression`, `relation`, `expression`); operators of one level associate to the left. For each
level: which token sequences are written for it (`Toks`) and what it means (`eval`). Nothing here refers to the grammar of the
converter.
-/
namespace Verif.Spec.Lrm
open Verif.Vhdl

mutual
/-- LRM 8.1: names. `call` is also an indexed name, a type conversion: they look the same. -/
inductive LName
  | lit (l : NameLit)
  | sel (n : LName) (s : Suffix)
  | attr (n : LName) (d : Str)
  | call (n : LName) (first : LArg) (more : List LArg)
  | slice (n : LName) (a : LSimple) (downto : Bool) (b : LSimple)
/-- LRM 6.5.7, 9.3.4: association elements. -/
inductive LArg
  | pos (e : LExpr)
  | opn
  | named (f : LName) (e : LExpr)
/-- LRM 9.3: primaries. `group`: a parenthesised expression (one positional element) or an aggregate. -/
inductive LPrim
  | name (n : LName)
  | dec (t : Str)
  | decUnit (t : Str) (u : LName)
  | based (t : Str)
  | basedUnit (t : Str) (u : LName)
  | bits (t : Str)
  | null
  | group (first : LElem) (more : List LElem)
  | qual (n : LName) (first : LElem) (more : List LElem)
/-- LRM 9.3.3: element associations. -/
inductive LElem
  | pos (e : LExpr)
  | named (c : LChoice) (more : List LChoice) (e : LExpr)
/-- LRM 9.3.3: choices. -/
inductive LChoice
  | expr (s : LSimple)
  | range (a : LSimple) (downto : Bool) (b : LSimple)
  | others
/-- LRM 9.1: `primary [ ** primary ] | abs primary | not primary | logical_operator primary`. -/
inductive LFactor
  | prim (p : LPrim)
  | pow (a b : LPrim)
  | abs (p : LPrim)
  | not (p : LPrim)
  | red (o : LogOp) (p : LPrim)
/-- LRM 9.1: `factor { multiplying_operator factor }`. -/
inductive LTerm
  | one (f : LFactor)
  | mul (t : LTerm) (o : MulOp) (f : LFactor)
/-- LRM 9.1: `[ sign ] term { adding_operator term }`. -/
inductive LSimple
  | one (t : LTerm)
  | signed (o : SignOp) (t : LTerm)
  | add (s : LSimple) (o : AddOp) (t : LTerm)
/-- LRM 9.1: `simple_expression [ shift_operator simple_expression ]`. -/
inductive LShift
  | one (s : LSimple)
  | shift (a : LSimple) (o : ShiftOp) (b : LSimple)
/-- LRM 9.1: `shift_expression [ relational_operator shift_expression ]`. -/
inductive LRel
  | one (s : LShift)
  | rel (a : LShift) (o : RelOp) (b : LShift)
/-- LRM 9.1: `?? primary` or a sequence of relations with logical operators. (The LRM demands that the operators of one
sequence are the same and that `nand` and `nor` are not repeated, here any sequence.) -/
inductive LExpr
  | cond (p : LPrim)
  | one (r : LRel)
  | logic (a : LExpr) (o : LogOp) (b : LRel)
end

/-! ## Token sequences -/

/-- Types of the tokens of names. -/
def NameLit.Tok : NameLit → VTok → Prop
  | .ident s, t => (t.ty = .BASIC_IDENTIFIER ∨ t.ty = .EXTENDED_IDENTIFIER) ∧ t.text = s
  | .opSymbol s, t => t.ty = .STRING_LITERAL ∧ t.text = s
  | .chr s, t => t.ty = .CHARACTER_LITERAL ∧ t.text = s
def Suffix.Tok : Suffix → VTok → Prop
  | .lit l, t => NameLit.Tok l t
  | .all, t => t.ty = .kw .ALL
/-- An attribute is named by an identifier or a reserved word (`'range`, `'subtype`). -/
def attrTok (s : Str) (t : VTok) : Prop :=
  (t.ty = .BASIC_IDENTIFIER ∨ t.ty = .EXTENDED_IDENTIFIER ∨ ∃ k, t.ty = .kw k) ∧ t.text = s
def dirTy : Bool → VT | true => .kw .DOWNTO | false => .kw .TO
def logTy : LogOp → VT
  | .and => .kw .AND | .or => .kw .OR | .nand => .kw .NAND | .nor => .kw .NOR | .xor => .kw .XOR | .xnor => .kw .XNOR
def relTy : RelOp → VT
  | .eq => .EQ | .ne => .NE | .lt => .LT | .le => .CONASGN | .gt => .GT | .ge => .GE | .eqMatch => .EQ_MATCH
  | .neMatch => .NE_MATCH | .ltMatch => .LT_MATCH | .leMatch => .LE_MATCH | .gtMatch => .GT_MATCH | .geMatch => .GE_MATCH
def shiftTy : ShiftOp → VT
  | .sll => .kw .SLL | .srl => .kw .SRL | .sla => .kw .SLA | .sra => .kw .SRA | .rol => .kw .ROL | .ror => .kw .ROR
def addTy : AddOp → VT | .plus => .PLUS | .minus => .MINUS | .amp => .AMPERSAND
def signTy : SignOp → VT | .plus => .PLUS | .minus => .MINUS
def mulTy : MulOp → VT | .mul => .MUL | .div => .DIV | .mod => .kw .MOD | .rem => .kw .REM

/-- Two parts one after the other. -/
def Cat (p q : List VTok → Prop) (w : List VTok) : Prop := ∃ u v, w = u ++ v ∧ p u ∧ q v
/-- One token of a type. -/
def One (t : VT) (w : List VTok) : Prop := ∃ x, w = [x] ∧ x.ty = t
/-- One token with a property. -/
def OneP (p : VTok → Prop) (w : List VTok) : Prop := ∃ x, w = [x] ∧ p x
/-- A token with a text. -/
def OneT (t : VT) (s : Str) (w : List VTok) : Prop := ∃ x, w = [x] ∧ x.ty = t ∧ x.text = s

mutual
def LName.Toks : LName → List VTok → Prop
  | .lit l => OneP (NameLit.Tok l)
  | .sel n s => Cat n.Toks (Cat (One .DOT) (OneP (Suffix.Tok s)))
  | .attr n d => Cat n.Toks (Cat (One .APOSTROPHE) (OneP (attrTok d)))
  | .call n a l => Cat n.Toks (Cat (One .LPAREN) (Cat a.Toks (Cat (argsToks l) (One .RPAREN))))
  | .slice n a d b => Cat n.Toks (Cat (One .LPAREN) (Cat a.Toks (Cat (One (dirTy d)) (Cat b.Toks (One .RPAREN)))))
def LArg.Toks : LArg → List VTok → Prop
  | .pos e => e.Toks
  | .opn => One (.kw .OPEN)
  | .named f e => Cat f.Toks (Cat (One .ARROW) e.Toks)
/-- Further arguments, each with a comma in front. -/
def argsToks : List LArg → List VTok → Prop
  | [] => fun w => w = []
  | a :: l => Cat (One .COMMA) (Cat a.Toks (argsToks l))
def LPrim.Toks : LPrim → List VTok → Prop
  | .name n => n.Toks
  | .dec t => OneT .DECIMAL_LITERAL t
  | .decUnit t u => Cat (OneT .DECIMAL_LITERAL t) u.Toks
  | .based t => OneT .BASED_LITERAL t
  | .basedUnit t u => Cat (OneT .BASED_LITERAL t) u.Toks
  | .bits t => OneT .BIT_STRING_LITERAL t
  | .null => One (.kw .NULL)
  | .group e l => Cat (One .LPAREN) (Cat e.Toks (Cat (elemsToks l) (One .RPAREN)))
  | .qual n e l => Cat n.Toks (Cat (One .APOSTROPHE) (Cat (One .LPAREN) (Cat e.Toks (Cat (elemsToks l) (One .RPAREN)))))
def LElem.Toks : LElem → List VTok → Prop
  | .pos e => e.Toks
  | .named c l e => Cat c.Toks (Cat (choicesToks l) (Cat (One .ARROW) e.Toks))
/-- Further elements, each with a comma in front. -/
def elemsToks : List LElem → List VTok → Prop
  | [] => fun w => w = []
  | a :: l => Cat (One .COMMA) (Cat a.Toks (elemsToks l))
def LChoice.Toks : LChoice → List VTok → Prop
  | .expr s => s.Toks
  | .range a d b => Cat a.Toks (Cat (One (dirTy d)) b.Toks)
  | .others => One (.kw .OTHERS)
/-- Further choices, each with a bar in front. -/
def choicesToks : List LChoice → List VTok → Prop
  | [] => fun w => w = []
  | a :: l => Cat (One .BAR) (Cat a.Toks (choicesToks l))
def LFactor.Toks : LFactor → List VTok → Prop
  | .prim p => p.Toks
  | .pow a b => Cat a.Toks (Cat (One .DOUBLESTAR) b.Toks)
  | .abs p => Cat (One (.kw .ABS)) p.Toks
  | .not p => Cat (One (.kw .NOT)) p.Toks
  | .red o p => Cat (One (logTy o)) p.Toks
def LTerm.Toks : LTerm → List VTok → Prop
  | .one f => f.Toks
  | .mul t o f => Cat t.Toks (Cat (One (mulTy o)) f.Toks)
def LSimple.Toks : LSimple → List VTok → Prop
  | .one t => t.Toks
  | .signed o t => Cat (One (signTy o)) t.Toks
  | .add s o t => Cat s.Toks (Cat (One (addTy o)) t.Toks)
def LShift.Toks : LShift → List VTok → Prop
  | .one s => s.Toks
  | .shift a o b => Cat a.Toks (Cat (One (shiftTy o)) b.Toks)
def LRel.Toks : LRel → List VTok → Prop
  | .one s => s.Toks
  | .rel a o b => Cat a.Toks (Cat (One (relTy o)) b.Toks)
def LExpr.Toks : LExpr → List VTok → Prop
  | .cond p => Cat (One .COND_OP) p.Toks
  | .one r => r.Toks
  | .logic a o b => Cat a.Toks (Cat (One (logTy o)) b.Toks)
end

/-! ## Surroundings -/

/-- Tokens which stand behind an expression in VHDL (IEEE 1076-2008, 6, 9, 10, 11). -/
def afterExpr : List VT := [.SEMI, .COMMA, .RPAREN, .ARROW, .BAR, .kw .TO, .kw .DOWNTO, .kw .AFTER, .kw .WHEN, .kw .ELSE, .kw .SELECT,
  .kw .THEN, .kw .LOOP, .kw .GENERATE, .kw .REPORT, .kw .SEVERITY, .kw .INERTIAL, .kw .IS, .kw .FOR]

/-- Tokens which continue a name: no construct has them behind a complete expression. -/
def goesOn : List VT := [.LPAREN, .LSQUARE_BR, .DOT, .APOSTROPHE]

/-- How many brackets are open behind the tokens if `d` are open in front of them; nothing if more are closed than are open. -/
def depthAfter : Nat → List VTok → Option Nat
  | d, [] => some d
  | d, t :: r =>
    if t.ty ∈ [VT.LPAREN, .LSQUARE_BR, .SHIFT_LEFT] then depthAfter (d + 1) r
    else if t.ty ∈ [VT.RPAREN, .RSQUARE_BR, .SHIFT_RIGHT] then (if d = 0 then none else depthAfter (d - 1) r)
    else depthAfter d r

/-! ## Meaning -/

variable {V : Type} (A : Alg V)

/-- The element is positional. -/
def LElem.isPos : LElem → Bool
  | .pos _ => true
  | .named .. => false

/-- The value of elements in parentheses: one positional element is the expression itself. -/
def groupVal (positional : Bool) (v : V) : List V → V
  | [] => if positional then v else A.agg [v]
  | x :: l => A.agg (v :: x :: l)

def dirSym : Bool → String | true => "downto" | false => "to"

mutual
def LName.eval : LName → V
  | .lit l => A.lit l
  | .sel n s => A.bin "." n.eval (evSuffix A s)
  | .attr n d => A.bin "'" n.eval (A.lit (.ident d))
  | .call n a l => A.index n.eval (a.eval :: argsEval l)
  | .slice n a d b => A.index n.eval [A.bin (dirSym d) a.eval b.eval]
def LArg.eval : LArg → V
  | .pos e => e.eval
  | .opn => A.opn
  | .named f e => A.bin "=>" f.eval e.eval
def argsEval : List LArg → List V
  | [] => []
  | a :: l => a.eval :: argsEval l
def LPrim.eval : LPrim → V
  | .name n => n.eval
  | .dec t => A.dec t
  | .decUnit t u => A.bin "unit" (A.dec t) u.eval
  | .based t => A.based t
  | .basedUnit t u => A.bin "unit" (A.based t) u.eval
  | .bits t => A.bits t
  | .null => A.nul
  | .group e l => groupVal A e.isPos e.eval (elemsEval l)
  | .qual n e l => A.bin "'" n.eval (groupVal A e.isPos e.eval (elemsEval l))
def LElem.eval : LElem → V
  | .pos e => e.eval
  | .named c [] e => A.bin "assoc" c.eval e.eval
  | .named c l e => A.bin "assoc" (A.choices (c.eval :: choicesEval l)) e.eval
def elemsEval : List LElem → List V
  | [] => []
  | a :: l => a.eval :: elemsEval l
def LChoice.eval : LChoice → V
  | .expr s => s.eval
  | .range a d b => A.bin (dirSym d) a.eval b.eval
  | .others => A.others
def choicesEval : List LChoice → List V
  | [] => []
  | a :: l => a.eval :: choicesEval l
def LFactor.eval : LFactor → V
  | .prim p => p.eval
  | .pow a b => A.bin "**" a.eval b.eval
  | .abs p => A.un "abs" p.eval
  | .not p => A.un "not" p.eval
  | .red o p => A.un (LogOp.sym o) p.eval
def LTerm.eval : LTerm → V
  | .one f => f.eval
  | .mul t o f => A.bin (MulOp.sym o) t.eval f.eval
def LSimple.eval : LSimple → V
  | .one t => t.eval
  | .signed o t => A.un (SignOp.sym o) t.eval
  | .add s o t => A.bin (AddOp.sym o) s.eval t.eval
def LShift.eval : LShift → V
  | .one s => s.eval
  | .shift a o b => A.bin (ShiftOp.sym o) a.eval b.eval
def LRel.eval : LRel → V
  | .one s => s.eval
  | .rel a o b => A.bin (RelOp.sym o) a.eval b.eval
def LExpr.eval : LExpr → V
  | .cond p => A.un "??" p.eval
  | .one r => r.eval
  | .logic a o b => A.bin (LogOp.sym o) a.eval b.eval
end

end Verif.Spec.Lrm
