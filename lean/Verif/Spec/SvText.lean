import Verif.Sv.Token
import Verif.Spec.SvSem
/-!
# Specification: the expressions of SystemVerilog (IEEE 1800-2017, 11 and Annex A.8)

Expressions as trees, the tokens that are written for them (`Toks`) and their meaning (`eval`). The operators are
those of Table 11-2; `row` is the row of the table, where the operators of a lower row bind tighter. An operand which binds weaker than
its operator has to be in parentheses; operators of one row associate to the left, but `?:`, `->` and `<->` to the right.
Nothing here refers to the grammar of the converter.
-/
namespace Verif.Spec.SvLrm
open Verif Verif.Sv Verif.Spec.Sv

/-- LRM 11.5.1: `[a:b]`, `[a+:b]`, `[a-:b]`. -/
inductive PartKind
  | range | up | down
deriving DecidableEq, Repr

mutual
/-- LRM A.8.3: expressions. -/
inductive SExp
  | prim (p : SPrim)
  | un (o : UnOp) (p : SPrim)
  | bin (a : SExp) (o : BinOp) (b : SExp)
  | cond (c t e : SExp)
/-- LRM A.8.4: primaries. -/
inductive SPrim
  | lit (l : Lit)
  /-- `i :: ...` -/
  | name (i : Ident) (more : List Ident)
  | paren (e : SExp)
  /-- `p ' ( e )`, LRM 6.24.1 -/
  | cast (p : SPrim) (e : SExp)
  | bit (p : SPrim) (e : SExp)
  | part (p : SPrim) (k : PartKind) (a b : SExp)
  | dot (p : SPrim) (i : Ident)
  /-- `{ first, more }` -/
  | concat (first : SExp) (more : List SExp)
  /-- `{ n { first, more } }` -/
  | repl (n first : SExp) (more : List SExp)
  /-- `'{ first, more }` -/
  | pat (first : SExp) (more : List SExp)
  /-- `'{ key : value, ... }` -/
  | patKeys (first : SKV) (more : List SKV)
  /-- `$f` -/
  | sys (f : Str)
  /-- `$f ( args )` -/
  | sysCall (f : Str) (args : List SArg)
  /-- `p ( args )` -/
  | call (p : SPrim) (args : List SArg)
/-- LRM A.6.7.1: `member : value`, `default : value`. -/
inductive SKV
  | field (i : Ident) (e : SExp)
  | dflt (e : SExp)
/-- LRM A.8.2: arguments of a call. -/
inductive SArg
  | omit
  | pos (e : SExp)
  | named (i : Ident) (e : SExp)
  | namedEmpty (i : Ident)
end

/-! ## Table 11-2 -/

/-- The row of a binary operator. -/
def BinOp.row : BinOp → Nat
  | .pow => 3
  | .mul | .div | .mod => 4
  | .add | .sub => 5
  | .shl | .shr | .ashl | .ashr => 6
  | .lt | .le | .gt | .ge => 7
  | .eq | .ne | .caseEq | .caseNe | .wildEq | .wildNe => 8
  | .and => 9
  | .xor | .nxor | .xorn => 10
  | .or => 11
  | .andLog => 12
  | .orLog => 13
  | .impl | .equiv => 15

/-- The row of the operator at the root; `2` are the unary operators, primaries bind tighter than all operators. -/
def SExp.row : SExp → Nat
  | .prim _ => 1
  | .un _ _ => 2
  | .bin _ o _ => BinOp.row o
  | .cond _ _ _ => 14

/-- The operators of row 15 associate to the right, the others to the left: the operand on the side of the association may have an operator
of the same row, the other one only operators that bind tighter. -/
def BinOp.Operands (o : BinOp) (a b : SExp) : Prop :=
  if BinOp.row o = 15 then a.row < 15 ∧ b.row ≤ 15 else a.row ≤ BinOp.row o ∧ b.row < BinOp.row o

/-! ## Tokens -/

/-- Identifiers; the words `sample`, `option`, `type_option` and `std` are not reserved (the word `randomize` is left out here). -/
def Ident.Tok (i : Ident) (t : STok) : Prop :=
  t.text = i.text ∧ if i.esc then t.ty = .ESCAPED_IDENTIFIER
    else t.ty ∈ [ST.C_IDENTIFIER, .SIMPLE_IDENTIFIER, .KW_SAMPLE, .KW_TYPE_OPTION, .KW_OPTION, .KW_STD]

def UnOp.ty : UnOp → ST
  | .plus => .PLUS | .minus => .MINUS | .not => .NOT | .neg => .NEG | .and => .AMPERSAND | .nand => .NAND | .or => .BAR | .nor => .NOR
  | .xor => .XOR | .nxor => .NXOR | .xorn => .XORN
def BinOp.ty : BinOp → ST
  | .pow => .DOUBLESTAR | .mul => .MUL | .div => .DIV | .mod => .MOD | .add => .PLUS | .sub => .MINUS | .shl => .SHIFT_LEFT
  | .shr => .SHIFT_RIGHT | .ashl => .ARITH_SHIFT_LEFT | .ashr => .ARITH_SHIFT_RIGHT | .lt => .LT | .le => .LE | .gt => .GT | .ge => .GE
  | .eq => .EQ | .ne => .NE | .caseEq => .CASE_EQ | .caseNe => .CASE_NE | .wildEq => .WILDCARD_EQ | .wildNe => .WILDCARD_NE
  | .and => .AMPERSAND | .xor => .XOR | .nxor => .NXOR | .xorn => .XORN | .or => .BAR | .andLog => .AND_LOG | .orLog => .OR_LOG
  | .impl => .ARROW | .equiv => .BI_DIR_ARROW

/-- Two parts one after the other. -/
def Cat (p q : List STok → Prop) (w : List STok) : Prop := ∃ u v, w = u ++ v ∧ p u ∧ q v
/-- One token of a type. -/
def One (t : ST) (w : List STok) : Prop := ∃ x, w = [x] ∧ x.ty = t
/-- One token with a property. -/
def OneP (p : STok → Prop) (w : List STok) : Prop := ∃ x, w = [x] ∧ p x
/-- A token with a text. -/
def OneT (t : ST) (s : Str) (w : List STok) : Prop := ∃ x, w = [x] ∧ x.ty = t ∧ x.text = s
/-- No token. -/
def Empty (w : List STok) : Prop := w = []

/-- LRM A.8.7, A.8.4 (`this` is left out). -/
def Lit.Toks : Lit → List STok → Prop
  | .time t => OneT .TIME_LITERAL t
  | .unbased t => OneT .UNBASED_UNSIZED_LITERAL t
  | .str t => OneT .STRING_LITERAL t
  | .integral (.basedWithSize t) => OneT .BASED_NUMBER_WITH_SIZE t
  | .integral (.anyBased none t) => OneT .ANY_BASED_NUMBER t
  | .integral (.anyBased (some n) t) => Cat (OneT .UNSIGNED_NUMBER n) (OneT .ANY_BASED_NUMBER t)
  | .integral (.unsigned t) => OneT .UNSIGNED_NUMBER t
  | .real t => OneP fun x => (x.ty = .REAL_NUMBER_WITH_EXP ∨ x.ty = .FIXED_POINT_NUMBER) ∧ x.text = t
  | .null => One .KW_NULL
  | .this => fun _ => False
  | .dolar => One .DOLAR

/-- `:`, `+:`, `-:`. -/
def PartKind.Toks : PartKind → List STok → Prop
  | .range => One .COLON
  | .up => Cat (One .PLUS) (One .COLON)
  | .down => Cat (One .MINUS) (One .COLON)

/-- `:: i :: ...` -/
def idsToks : List Ident → List STok → Prop
  | [] => Empty
  | i :: l => Cat (One .DOUBLE_COLON) (Cat (OneP (Ident.Tok i)) (idsToks l))

/-- LRM A.8.2: first the arguments by position, then those by name. -/
def ordered : List SArg → Bool
  | [] => true
  | .named _ _ :: l | .namedEmpty _ :: l => l.all fun a => match a with
    | .named _ _ | .namedEmpty _ => true
    | _ => false
  | _ :: l => ordered l
/-- The arguments in parentheses: `()` has no argument, not an omitted one. -/
def wellFormed (l : List SArg) : Prop := ordered l = true ∧ l ≠ [.omit]

/-- What can be called: a name, a selected name or an element of an array. -/
def callable : SPrim → Bool
  | .name _ _ => true
  | .dot p _ => callable p
  | .bit p _ => callable p
  | _ => false

mutual
def SExp.Toks : SExp → List STok → Prop
  | .prim p => p.Toks
  | .un o p => Cat (One (UnOp.ty o)) p.Toks
  | .bin a o b => fun w => BinOp.Operands o a b ∧ Cat a.Toks (Cat (One (BinOp.ty o)) b.Toks) w
  | .cond c t e => fun w => c.row < 14 ∧ e.row ≤ 14 ∧
      Cat c.Toks (Cat (One .QUESTIONMARK) (Cat t.Toks (Cat (One .COLON) e.Toks))) w
def SPrim.Toks : SPrim → List STok → Prop
  | .lit l => Lit.Toks l
  | .name i l => Cat (OneP (Ident.Tok i)) (idsToks l)
  | .paren e => Cat (One .LPAREN) (Cat e.Toks (One .RPAREN))
  | .cast p e => Cat p.Toks (Cat (One .APOSTROPHE) (Cat (One .LPAREN) (Cat e.Toks (One .RPAREN))))
  | .bit p e => Cat p.Toks (Cat (One .LSQUARE_BR) (Cat e.Toks (One .RSQUARE_BR)))
  | .part p k a b => Cat p.Toks (Cat (One .LSQUARE_BR) (Cat a.Toks (Cat (PartKind.Toks k) (Cat b.Toks (One .RSQUARE_BR)))))
  | .dot p i => Cat p.Toks (Cat (One .DOT) (OneP (Ident.Tok i)))
  | .concat e l => Cat (One .LBRACE) (Cat e.Toks (Cat (expsToks l) (One .RBRACE)))
  | .repl n e l => Cat (One .LBRACE) (Cat n.Toks (Cat (One .LBRACE) (Cat e.Toks (Cat (expsToks l)
      (Cat (One .RBRACE) (One .RBRACE))))))
  | .pat e l => Cat (One .APOSTROPHE_LBRACE) (Cat e.Toks (Cat (expsToks l) (One .RBRACE)))
  | .patKeys k l => Cat (One .APOSTROPHE_LBRACE) (Cat k.Toks (Cat (kvsToks l) (One .RBRACE)))
  | .sys f => OneT .SYSTEM_TF_IDENTIFIER f
  | .sysCall f l => fun w => wellFormed l ∧ Cat (OneT .SYSTEM_TF_IDENTIFIER f) (Cat (One .LPAREN) (Cat (argsToks l) (One .RPAREN))) w
  | .call p l => fun w => wellFormed l ∧ callable p = true ∧
      Cat p.Toks (Cat (One .LPAREN) (Cat (argsToks l) (One .RPAREN))) w
/-- Further expressions, each with a comma in front. -/
def expsToks : List SExp → List STok → Prop
  | [] => Empty
  | e :: l => Cat (One .COMMA) (Cat e.Toks (expsToks l))
def SKV.Toks : SKV → List STok → Prop
  | .field i e => Cat (OneP (Ident.Tok i)) (Cat (One .COLON) e.Toks)
  | .dflt e => Cat (One .KW_DEFAULT) (Cat (One .COLON) e.Toks)
def kvsToks : List SKV → List STok → Prop
  | [] => Empty
  | k :: l => Cat (One .COMMA) (Cat k.Toks (kvsToks l))
def SArg.Toks : SArg → List STok → Prop
  | .omit => Empty
  | .pos e => e.Toks
  | .named i e => Cat (One .DOT) (Cat (OneP (Ident.Tok i)) (Cat (One .LPAREN) (Cat e.Toks (One .RPAREN))))
  | .namedEmpty i => Cat (One .DOT) (Cat (OneP (Ident.Tok i)) (Cat (One .LPAREN) (One .RPAREN)))
/-- The arguments with commas between them. -/
def argsToks : List SArg → List STok → Prop
  | [] => Empty
  | a :: l => Cat a.Toks (moreToks l)
def moreToks : List SArg → List STok → Prop
  | [] => Empty
  | a :: l => Cat (One .COMMA) (Cat a.Toks (moreToks l))
end

/-- The tokens with which an expression goes on: the operators of Table 11-2 that stand behind an operand (also `&&&`, `matches` and
`inside`), and `'`, `[`, `.`, `(`, `with`, `#`, `::` and a base behind a primary. -/
def goesOn : List ST := [.DOUBLESTAR, .MUL, .DIV, .MOD, .PLUS, .MINUS, .SHIFT_LEFT, .SHIFT_RIGHT, .ARITH_SHIFT_LEFT, .ARITH_SHIFT_RIGHT,
  .LT, .LE, .GT, .GE, .KW_INSIDE, .EQ, .NE, .CASE_EQ, .CASE_NE, .WILDCARD_EQ, .WILDCARD_NE, .AMPERSAND, .XOR, .NXOR, .XORN, .BAR,
  .AND_LOG, .OR_LOG, .TRIPLE_AND, .KW_MATCHES, .QUESTIONMARK, .ARROW, .BI_DIR_ARROW, .APOSTROPHE, .LSQUARE_BR, .DOT, .LPAREN, .KW_WITH,
  .ANY_BASED_NUMBER, .HASH, .DOUBLE_COLON]

/-! ## Brackets -/

/-- Brackets are closed as often as they are opened, and never more often before; the same for `?` and `:` outside of brackets. `d` brackets
and `q` question marks are open. -/
def balanced : Nat → Nat → List STok → Bool
  | d, q, [] => d == 0 && q == 0
  | d, q, t :: r =>
    if t.ty ∈ [ST.LPAREN, .LSQUARE_BR, .LBRACE, .APOSTROPHE_LBRACE] then balanced (d + 1) q r
    else if t.ty ∈ [ST.RPAREN, .RSQUARE_BR, .RBRACE] then d != 0 && balanced (d - 1) q r
    else if d = 0 ∧ t.ty = .QUESTIONMARK then balanced d (q + 1) r
    else if d = 0 ∧ t.ty = .COLON then q != 0 && balanced d (q - 1) r
    else balanced d q r

/-! ## Meaning -/

variable {V : Type} (A : Alg V)

def PartKind.sym : PartKind → String
  | .range => ":" | .up => "+:" | .down => "-:"

/-- `v :: i :: ...` -/
def evIds (v : V) : List Ident → V
  | [] => v
  | i :: l => evIds (A.bin "::" v (A.ident i)) l

mutual
def SExp.eval : SExp → V
  | .prim p => p.eval
  | .un o p => A.un (UnOp.sym o) p.eval
  | .bin a o b => A.bin (BinOp.sym o) a.eval b.eval
  | .cond c t e => A.cond c.eval t.eval e.eval
def SPrim.eval : SPrim → V
  | .lit l => evLit A l
  | .name i l => evIds A (A.ident i) l
  | .paren e => e.eval
  | .cast p e => A.call p.eval [e.eval]
  | .bit p e => A.index p.eval e.eval
  | .part p k a b => A.index p.eval (A.bin (PartKind.sym k) a.eval b.eval)
  | .dot p i => A.bin "." p.eval (A.ident i)
  | .concat e l => A.concat (e.eval :: expsEval l)
  | .repl n e [] => A.repl n.eval e.eval
  | .repl n e l => A.repl n.eval (A.concat (e.eval :: expsEval l))
  | .pat e l => A.pattern (e.eval :: expsEval l)
  | .patKeys k l => A.pattern (k.eval :: kvsEval l)
  | .sys f => A.call (A.kw f) []
  | .sysCall f l => A.call (A.kw f) (argsEval l)
  | .call p l => A.call p.eval (argsEval l)
def expsEval : List SExp → List V
  | [] => []
  | e :: l => e.eval :: expsEval l
def SKV.eval : SKV → V
  | .field i e => A.bin "=>" (A.ident i) e.eval
  | .dflt e => A.bin "=>" (A.kw (c! "default")) e.eval
def kvsEval : List SKV → List V
  | [] => []
  | k :: l => k.eval :: kvsEval l
def SArg.eval : SArg → V
  | .omit => A.kw (c! "void")
  | .pos e => e.eval
  | .named i e => A.bin "=>" (A.ident i) e.eval
  | .namedEmpty i => A.bin "=>" (A.ident i) (A.kw (c! "void"))
def argsEval : List SArg → List V
  | [] => []
  | a :: l => a.eval :: argsEval l
end

end Verif.Spec.SvLrm
