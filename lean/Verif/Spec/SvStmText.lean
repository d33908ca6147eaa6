import Verif.Spec.SvText
import Verif.Spec.SvStm
/-!
# Specification: the procedural statements of SystemVerilog (IEEE 1800-2017, 9, 10, 12 and Annex A.6)

Statements as trees, the tokens that are written for them (`Toks`) and their meaning (`eval`). Nothing here refers to the grammar of the
converter.
-/
namespace Verif.Spec.SvLrm
open Verif Verif.Sv Verif.Spec.Sv

/-! ## Targets, delays and events -/

/-- A variable, or an element of an array. -/
def element : SPrim → Bool
  | .name _ _ => true
  | .bit p _ => element p
  | _ => false

mutual
/-- LRM A.8.5: what can be assigned. Members of structures and `{a}` with only one target are left out. -/
def target : SPrim → Bool
  | .name _ _ => true
  | .bit p _ => element p
  | .part p _ _ _ => element p
  | .concat e l => !l.isEmpty && targetE e && targetEs l
  | _ => false
def targetE : SExp → Bool
  | .prim p => target p
  | _ => false
def targetEs : List SExp → Bool
  | [] => true
  | e :: l => targetE e && targetEs l
end

/-- LRM 9.4.1, A.6.5: `# value`, `# ( expression )`. -/
inductive SDelay
  | num (t : Str)
  | real (t : Str)
  | name (i : Ident)
  | paren (e : SExp)

/-- LRM 9.4.2: one entry of an event control. -/
inductive SEdge
  | change | pos | neg
deriving DecidableEq, Repr

/-- LRM 9.4.2, A.6.5: `@*`, `@(*)`, `@ name`, `@( ... )`. -/
inductive SEvent
  | star
  | starParen
  | name (p : SPrim)
  | list (first : SEdge × SExp) (more : List (SEdge × SExp))

/-- A delay or an event control. -/
inductive STiming
  | delay (d : SDelay)
  | event (e : SEvent)

def SDelay.Toks : SDelay → List STok → Prop
  | .num t => Cat (One .HASH) (OneT .UNSIGNED_NUMBER t)
  | .real t => Cat (One .HASH) (OneP fun x => (x.ty = .REAL_NUMBER_WITH_EXP ∨ x.ty = .FIXED_POINT_NUMBER) ∧ x.text = t)
  | .name i => Cat (One .HASH) (OneP (Ident.Tok i))
  | .paren e => Cat (One .HASH) (Cat (One .LPAREN) (Cat e.Toks (One .RPAREN)))

/-- Further parts, with a separator in front of each. -/
def restToks {α : Type} (sep : List STok → Prop) (p : α → List STok → Prop) : List α → List STok → Prop
  | [] => Empty
  | a :: l => Cat sep (Cat (p a) (restToks sep p l))

/-- An entry without an edge that begins with a parenthesis is left out: it can also be read as a list of events. -/
def entryToks : SEdge × SExp → List STok → Prop
  | (.change, e) => fun w => e.Toks w ∧ ∀ x s, w = x :: s → x.ty ≠ .LPAREN
  | (.pos, e) => Cat (One .KW_POSEDGE) e.Toks
  | (.neg, e) => Cat (One .KW_NEGEDGE) e.Toks
/-- Further entries, with `or` or `,` in front of each. -/
def entriesToks : List (SEdge × SExp) → List STok → Prop := restToks (OneP fun x => x.ty = .KW_OR ∨ x.ty = .COMMA) entryToks

def SEvent.Toks : SEvent → List STok → Prop
  | .star => Cat (One .AT) (One .MUL)
  | .starParen => Cat (One .AT) (Cat (One .LPAREN) (Cat (One .MUL) (One .RPAREN)))
  | .name p => fun w => element p = true ∧ Cat (One .AT) p.Toks w
  | .list e l => Cat (One .AT) (Cat (One .LPAREN) (Cat (entryToks e) (Cat (entriesToks l) (One .RPAREN))))

def STiming.Toks : STiming → List STok → Prop
  | .delay d => d.Toks
  | .event e => e.Toks

/-- `@ name` -/
def STiming.isName : STiming → Bool
  | .event (.name _) => true
  | _ => false

/-! ## Statements -/

/-- LRM A.6.2: `=`, `+=`, ... -/
def AssignOp.ty : AssignOp → ST
  | .assign => .ASSIGN | .plus => .PLUS_ASSIGN | .minus => .MINUS_ASSIGN | .mul => .MUL_ASSIGN | .div => .DIV_ASSIGN | .mod => .MOD_ASSIGN
  | .and => .AND_ASSIGN | .or => .OR_ASSIGN | .xor => .XOR_ASSIGN | .shl => .SHIFT_LEFT_ASSIGN | .shr => .SHIFT_RIGHT_ASSIGN
  | .ashl => .ARITH_SHIFT_LEFT_ASSIGN | .ashr => .ARITH_SHIFT_RIGHT_ASSIGN

def incDecTy (inc : Bool) : ST := if inc then .INCR else .DECR

/-- LRM 6.11: the integer types with a fixed size. -/
inductive SAtom
  | byte | shortint | int | longint | integer | time
deriving DecidableEq, Repr

def SAtom.ty : SAtom → ST
  | .byte => .KW_BYTE | .shortint => .KW_SHORTINT | .int => .KW_INT | .longint => .KW_LONGINT | .integer => .KW_INTEGER | .time => .KW_TIME
def SAtom.text : SAtom → Str
  | .byte => c! "byte" | .shortint => c! "shortint" | .int => c! "int" | .longint => c! "longint" | .integer => c! "integer"
  | .time => c! "time"

/-- LRM A.6.8: the start of a `for`. -/
inductive SInit
  | none
  | assign (first : SPrim × SExp) (more : List (SPrim × SExp))
  /-- `int i = 0, j = 1` -/
  | decl (t : SAtom) (first : Ident × SExp) (more : List (Ident × SExp))

/-- LRM A.6.8: the step of a `for`. -/
inductive SStep
  | assign (l : SPrim) (o : AssignOp) (e : SExp)
  | incDec (pre inc : Bool) (l : SPrim)

mutual
/-- LRM A.6.4 -/
inductive SStm
  | null
  | assign (l : SPrim) (o : AssignOp) (e : SExp)
  /-- `l = t e` -/
  | timed (l : SPrim) (t : STiming) (e : SExp)
  /-- `l <= e`, `l <= t e` -/
  | nonblocking (l : SPrim) (t : Option STiming) (e : SExp)
  | incDec (pre inc : Bool) (l : SPrim)
  /-- `f ( ... )`, `f`, `$f ( ... )`, `$f` -/
  | call (p : SPrim)
  /-- `void ' ( e )` -/
  | voidCall (e : SExp)
  | case (u : Option UniqPrio) (k : CaseKw) (e : SExp) (first : SCase) (more : List SCase)
  | ite (c : SExp) (t : SStm)
  | iteElse (c : SExp) (t f : SStm)
  | forever (b : SStm)
  | repeat_ (e : SExp) (b : SStm)
  | while_ (e : SExp) (b : SStm)
  | doWhile (b : SStm) (e : SExp)
  | for_ (i : SInit) (c : Option SExp) (s : List SStep) (b : SStm)
  | ret (e : Option SExp)
  | break_
  | continue_
  /-- `begin : label ... end : label` -/
  | block (label : Option Ident) (l : List SStm) (endLabel : Option Ident)
  | fork (label : Option Ident) (l : List SStm) (j : Join) (endLabel : Option Ident)
  | timing (t : STiming) (b : SStm)
  | label (i : Ident) (s : SStm)
/-- LRM A.6.7 -/
inductive SCase
  | exprs (first : SExp) (more : List SExp) (s : SStm)
  /-- `default : s`, `default s` -/
  | dflt (colon : Bool) (s : SStm)
end

/-- Neither `;` nor a statement with a label. -/
def SStm.plain : SStm → Bool
  | .null => false
  | .label _ _ => false
  | _ => true

/-- LRM 12.4: the text ends with an `if` without `else`, a following `else` belongs to it. -/
def SStm.openIf : SStm → Bool
  | .ite _ _ => true
  | .iteElse _ _ f => f.openIf
  | .forever b => b.openIf
  | .repeat_ _ b => b.openIf
  | .while_ _ b => b.openIf
  | .for_ _ _ _ b => b.openIf
  | .timing _ b => b.openIf
  | .label _ s => s.openIf
  | _ => false

/-- LRM A.6.9: a call of a task or a function; the parentheses can be left out. -/
def isCall : SPrim → Bool
  | .call _ _ => true
  | .sys _ => true
  | .sysCall _ _ => true
  | p => callable p

/-- `( w )` -/
def inParens (p : List STok → Prop) : List STok → Prop := Cat (One .LPAREN) (Cat p (One .RPAREN))

/-- Nothing, or `: i`. -/
def labelToks : Option Ident → List STok → Prop
  | none => Empty
  | some i => Cat (One .COLON) (OneP (Ident.Tok i))

def uniqToks : Option UniqPrio → List STok → Prop
  | none => Empty
  | some .unique => One .KW_UNIQUE
  | some .unique0 => One .KW_UNIQUE0
  | some .priority => One .KW_PRIORITY

def caseTy : CaseKw → ST
  | .case => .KW_CASE | .casez => .KW_CASEZ | .casex => .KW_CASEX

/-- `none` for the joins that no keyword ends. -/
def joinTy : Join → Option ST
  | .PAR_JOIN => some .KW_JOIN
  | .PAR_JOIN_ANY => some .KW_JOIN_ANY
  | .PAR_JOIN_NONE => some .KW_JOIN_NONE
  | _ => none

def optToks : Option SExp → List STok → Prop
  | none => Empty
  | some e => e.Toks

/-- `target op value` -/
def assignToks (l : SPrim) (o : ST) (e : SExp) (w : List STok) : Prop := target l = true ∧ Cat l.Toks (Cat (One o) e.Toks) w

def assignsToks : List (SPrim × SExp) → List STok → Prop := restToks (One .COMMA) fun a => assignToks a.1 .ASSIGN a.2
def declToks (a : Ident × SExp) : List STok → Prop := Cat (OneP (Ident.Tok a.1)) (Cat (One .ASSIGN) a.2.Toks)
def declsToks : List (Ident × SExp) → List STok → Prop := restToks (One .COMMA) declToks

def SInit.Toks : SInit → List STok → Prop
  | .none => Empty
  | .assign a l => Cat (assignToks a.1 .ASSIGN a.2) (assignsToks l)
  | .decl t a l => Cat (OneT t.ty t.text) (Cat (declToks a) (declsToks l))

def incDecToks (pre inc : Bool) (l : SPrim) (w : List STok) : Prop :=
  target l = true ∧ if pre then Cat (One (incDecTy inc)) l.Toks w else Cat l.Toks (One (incDecTy inc)) w

def SStep.Toks : SStep → List STok → Prop
  | .assign l o e => assignToks l (AssignOp.ty o) e
  | .incDec pre inc l => incDecToks pre inc l
def stepsToks : List SStep → List STok → Prop
  | [] => Empty
  | s :: l => Cat s.Toks (restToks (One .COMMA) SStep.Toks l)

mutual
def SStm.Toks : SStm → List STok → Prop
  | .null => One .SEMI
  | .assign l o e => Cat (assignToks l (AssignOp.ty o) e) (One .SEMI)
  | .timed l t e => fun w => target l = true ∧ Cat l.Toks (Cat (One .ASSIGN) (Cat t.Toks (Cat e.Toks (One .SEMI)))) w
  | .nonblocking l none e => Cat (assignToks l .LE e) (One .SEMI)
  | .nonblocking l (some t) e => fun w => target l = true ∧ Cat l.Toks (Cat (One .LE) (Cat t.Toks (Cat e.Toks (One .SEMI)))) w
  | .incDec pre inc l => Cat (incDecToks pre inc l) (One .SEMI)
  | .call p => fun w => isCall p = true ∧ Cat p.Toks (One .SEMI) w
  | .voidCall e => Cat (One .KW_VOID) (Cat (One .APOSTROPHE) (Cat (inParens e.Toks) (One .SEMI)))
  | .case u k e c l => Cat (uniqToks u) (Cat (One (caseTy k)) (Cat (inParens e.Toks) (Cat c.Toks (Cat (casesToks l) (One .KW_ENDCASE)))))
  | .ite c t => Cat (One .KW_IF) (Cat (inParens c.Toks) t.Toks)
  /- LRM 12.4: `else` belongs to the closest `if` -/
  | .iteElse c t f => fun w => t.openIf = false ∧ Cat (One .KW_IF) (Cat (inParens c.Toks) (Cat t.Toks (Cat (One .KW_ELSE) f.Toks))) w
  | .forever b => Cat (One .KW_FOREVER) b.Toks
  | .repeat_ e b => Cat (One .KW_REPEAT) (Cat (inParens e.Toks) b.Toks)
  | .while_ e b => Cat (One .KW_WHILE) (Cat (inParens e.Toks) b.Toks)
  | .doWhile b e => Cat (One .KW_DO) (Cat b.Toks (Cat (One .KW_WHILE) (Cat (inParens e.Toks) (One .SEMI))))
  | .for_ i c s b => Cat (One .KW_FOR) (Cat (One .LPAREN) (Cat i.Toks (Cat (One .SEMI) (Cat (optToks c) (Cat (One .SEMI) (Cat (stepsToks s)
      (Cat (One .RPAREN) b.Toks)))))))
  | .ret e => Cat (One .KW_RETURN) (Cat (optToks e) (One .SEMI))
  | .break_ => Cat (One .KW_BREAK) (One .SEMI)
  | .continue_ => Cat (One .KW_CONTINUE) (One .SEMI)
  | .block n l e => Cat (One .KW_BEGIN) (Cat (labelToks n) (Cat (stmsToks l) (Cat (One .KW_END) (labelToks e))))
  | .fork n l j e => Cat (One .KW_FORK) (Cat (labelToks n) (Cat (stmsToks l) (Cat (OneP fun x => joinTy j = some x.ty) (labelToks e))))
  /- `@ name # ...` is left out: `name # ( ... )` can also be a name with parameters -/
  | .timing t b => fun w => ∃ u v, w = u ++ v ∧ t.Toks u ∧ b.Toks v ∧ (t.isName = true → ∀ x s, v = x :: s → x.ty ≠ .HASH)
  | .label i s => fun w => s.plain = true ∧ Cat (OneP (Ident.Tok i)) (Cat (One .COLON) s.Toks) w
def stmsToks : List SStm → List STok → Prop
  | [] => Empty
  | s :: l => Cat s.Toks (stmsToks l)
def SCase.Toks : SCase → List STok → Prop
  | .exprs e l s => Cat e.Toks (Cat (expsToks l) (Cat (One .COLON) s.Toks))
  | .dflt true s => Cat (One .KW_DEFAULT) (Cat (One .COLON) s.Toks)
  | .dflt false s => Cat (One .KW_DEFAULT) s.Toks
def casesToks : List SCase → List STok → Prop
  | [] => Empty
  | c :: l => Cat c.Toks (casesToks l)
end

/-! ## Meaning -/

variable {V S : Type} (A : Alg V) (B : SAlg V S)

def SDelay.eval : SDelay → V
  | .num t => A.lit (.integral (.unsigned t))
  | .real t => A.lit (.real t)
  | .name i => A.ident i
  | .paren e => e.eval A

def entryEval : SEdge × SExp → Ev V
  | (.change, e) => .change (e.eval A)
  | (.pos, e) => .pos (e.eval A)
  | (.neg, e) => .neg (e.eval A)

def SEvent.eval : SEvent → List (Ev V)
  | .star => [.any]
  | .starParen => [.any]
  | .name p => [.change (p.eval A)]
  | .list e l => entryEval A e :: l.map (entryEval A)

/-- An assignment with a delay or an event control in front of the value. -/
def timedEval (blocking : Bool) (l e : V) : STiming → S
  | .delay d => B.assignDelay blocking l e (d.eval A)
  | .event v => B.assignEvent blocking l e (v.eval A)

/-- `l = e`, `l += e`, ... -/
def assignEval (l : SPrim) (o : AssignOp) (e : SExp) : S :=
  if o = .assign then B.assign true (l.eval A) (e.eval A) else B.expr (A.bin (AssignOp.sym o) (l.eval A) (e.eval A))

def SInit.eval : SInit → List S
  | .none => []
  | .assign a l => (a :: l).map fun a => B.assign true (a.1.eval A) (a.2.eval A)
  | .decl t a l => (a :: l).map fun a => B.decl ⟨false, false, false⟩ (A.ident a.1) (A.kw t.text) (some (a.2.eval A))

def SStep.eval : SStep → S
  | .assign l o e => assignEval A B l o e
  | .incDec pre inc l => B.expr (A.un (incDecSym pre inc) (l.eval A))

def labelEval : Option Ident → S → S
  | none, s => s
  | some i, s => B.label (A.ident i) s

mutual
def SStm.eval : SStm → S
  | .null => B.nop
  | .assign l o e => assignEval A B l o e
  | .timed l t e => timedEval A B true (l.eval A) (e.eval A) t
  | .nonblocking l none e => B.assign false (l.eval A) (e.eval A)
  | .nonblocking l (some t) e => timedEval A B false (l.eval A) (e.eval A) t
  | .incDec pre inc l => B.expr (A.un (incDecSym pre inc) (l.eval A))
  | .call p => B.expr (p.eval A)
  | .voidCall e => B.expr (A.call (A.kw (c! "void")) [e.eval A])
  | .case u k e c l => B.case (uniqOf u) (caseOf k) (e.eval A) (c.values ++ casesValues l) (c.default <|> casesDefault l)
  | .ite c t => B.ite (c.eval A) t.eval none
  | .iteElse c t f => B.ite (c.eval A) t.eval (some f.eval)
  | .forever b => B.forever b.eval
  | .repeat_ e b => B.repeat_ (e.eval A) b.eval
  | .while_ e b => B.while_ (e.eval A) b.eval
  | .doWhile b e => B.doWhile b.eval (e.eval A)
  | .for_ i c s b => B.for_ (i.eval A B) (c.map (SExp.eval A)) (s.map (SStep.eval A B)) b.eval
  | .ret e => B.ret (e.map (SExp.eval A))
  | .break_ => B.break_
  | .continue_ => B.continue_
  | .block n l _ => labelEval A B n (B.block .SEQ (stmsEval l))
  | .fork n l j _ => labelEval A B n (B.block j (stmsEval l))
  | .timing (.delay d) b => B.delay (d.eval A) b.eval
  | .timing (.event e) b => B.onEvent (e.eval A) b.eval
  | .label i s => B.label (A.ident i) s.eval
def stmsEval : List SStm → List S
  | [] => []
  | s :: l => s.eval :: stmsEval l
/-- The values of an item, each with its statement. -/
def SCase.values : SCase → List (V × S)
  | .exprs e l s => (e :: l).map fun e => (e.eval A, s.eval)
  | .dflt _ _ => []
def SCase.default : SCase → Option S
  | .exprs _ _ _ => none
  | .dflt _ s => some s.eval
def casesValues : List SCase → List (V × S)
  | [] => []
  | c :: l => c.values ++ casesValues l
def casesDefault : List SCase → Option S
  | [] => none
  | c :: l => c.default <|> casesDefault l
end

end Verif.Spec.SvLrm
