import Verif.Vhdl.Tree
/-!
# Specification: what a VHDL expression means and what its AST means

Both meanings are given relative to an arbitrary algebra (a set of values and an arbitrary meaning of the VHDL operators), so that
"the AST has the meaning of the source" says that operators, operands, their order and their grouping are right.
-/
namespace Verif.Spec
open Verif.Vhdl

/-- An interpretation of the VHDL operators; operators are named by their symbol. -/
structure Alg (V : Type) where
  lit : NameLit → V
  dec : Str → V
  based : Str → V
  bits : Str → V
  nul : V
  opn : V
  all : V
  others : V
  newKw : V
  un : String → V → V
  bin : String → V → V → V
  /-- array element, slice, function call, type conversion: they look the same in VHDL -/
  index : V → List V → V
  /-- application of `new` and of conversions in association lists -/
  call : V → List V → V
  agg : List V → V
  /-- several choices of one element association -/
  choices : List V → V
  /-- the waveform elements of one waveform, each with its delay -/
  wave : List (V × Option V) → V
  unaffected : V
  /-- truth value of a condition -/
  truth : V → Bool

def LogOp.sym : LogOp → String
  | .and => "and" | .or => "or" | .nand => "nand" | .nor => "nor" | .xor => "xor" | .xnor => "xnor"
def RelOp.sym : RelOp → String
  | .eq => "=" | .ne => "/=" | .lt => "<" | .le => "<=" | .gt => ">" | .ge => ">=" | .eqMatch => "?=" | .neMatch => "?/="
  | .ltMatch => "?<" | .leMatch => "?<=" | .gtMatch => "?>" | .geMatch => "?>="
def ShiftOp.sym : ShiftOp → String
  | .sll => "sll" | .srl => "srl" | .sla => "sla" | .sra => "sra" | .rol => "rol" | .ror => "ror"
def AddOp.sym : AddOp → String | .plus => "+" | .minus => "-" | .amp => "&"
def SignOp.sym : SignOp → String | .plus => "+" | .minus => "-"
def MulOp.sym : MulOp → String | .mul => "*" | .div => "/" | .mod => "mod" | .rem => "rem"

variable {V : Type} (A : Alg V)

def evSuffix : Suffix → V
  | .lit l => A.lit l
  | .all => A.all

mutual
/-- Meaning of a name. -/
def evName : Name → V
  | .lit l => A.lit l
  | .external => A.bin "<<>>" A.opn A.opn
  | .slice n r => A.index (evName n) [evERange r]
  | .attr n _ d => A.bin "'" (evName n) (A.lit (.ident d))
  | .dot n s => A.bin "." (evName n) (evSuffix A s)
  | .assoc n l => A.index (evName n) (evAssocs l)
def evERange : ERange → V
  | .mk a true b => A.bin "downto" (evSimple a) (evSimple b)
  | .mk a false b => A.bin "to" (evSimple a) (evSimple b)
def evAssocs : List Assoc → List V
  | [] => []
  | a :: l => evAssoc a :: evAssocs l
def evAssoc : Assoc → V
  | .pos a => evActual a
  | .named f a => A.bin "=>" (evName f) (evActual a)
  | .namedConv f g a => A.bin "=>" (A.call (evName f) [evName g]) (evActual a)
def evActual : Actual → V
  | .desig d => evDesig d
  | .conv n d => A.call (evName n) [evDesig d]
def evDesig : Desig → V
  | .opn => A.opn
  | .sub s => evSubInd s
  | .expr e => evExpression e
/-- Meaning of a subtype: the constraint restricts the named type, the resolution function is attached to the result. -/
def evSubInd : SubInd → V
  | .mk .none tm c => evConstr (evName tm) c
  | .mk (.name n) tm c => A.bin "resolved" (evName n) (evConstr (evName tm) c)
  | .mk .element tm c => A.un "element_resolution" (evConstr (evName tm) c)
def evConstr (t : V) : Constr → V
  | .none => t
  | .range r => A.bin "range" t (evRange r)
  | .array a => evArrC t a
  | .record => A.un "record_constraint" t
def evRange : Range → V
  | .attr n _ d => A.bin "'" (evName n) (A.lit (.ident d))
  | .expl r => evERange r
def evArrC (t : V) : ArrC → V
  | .index l c => evElemC (A.index t (evDiscrs l)) c
  | .opn c => evElemC (A.index t [A.all]) c
def evElemC (t : V) : ElemC → V
  | .none => t
  | .array a => evArrC t a
  | .record => A.un "record_constraint" t
def evDiscrs : List Discr → List V
  | [] => []
  | d :: l => evDiscr d :: evDiscrs l
def evDiscr : Discr → V
  | .sub s => evSubInd s
  | .range r => evRange r
def evExpression : Expression → V
  | .cond p => A.un "??" (evPrimary p)
  | .simple s => evSimple s
  | .shift a o b => A.bin (ShiftOp.sym o) (evExpression a) (evExpression b)
  | .rel a o b => A.bin (RelOp.sym o) (evExpression a) (evExpression b)
  | .logic a o b => A.bin (LogOp.sym o) (evExpression a) (evExpression b)
def evSimple : Simple → V
  | .prim p => evPrimary p
  | .pow a b => A.bin "**" (evPrimary a) (evPrimary b)
  | .abs s => A.un "abs" (evSimple s)
  | .not s => A.un "not" (evSimple s)
  | .logic o s => A.un (LogOp.sym o) (evSimple s)
  | .sign o s => A.un (SignOp.sym o) (evSimple s)
  | .mul a o b => A.bin (MulOp.sym o) (evSimple a) (evSimple b)
  | .add a o b => A.bin (AddOp.sym o) (evSimple a) (evSimple b)
def evPrimary : Primary → V
  | .name n => evName n
  | .dec t => A.dec t
  | .decUnit t n => A.bin "unit" (A.dec t) (evName n)
  | .based t => A.based t
  | .basedUnit t n => A.bin "unit" (A.based t) (evName n)
  | .bits t => A.bits t
  | .null => A.nul
  | .newSub s => A.call A.newKw [evSubInd s]
  | .newQual t l => A.call A.newKw [A.bin "'" (evName t) (evAgg l)]
  | .agg l => evAgg l
  | .qual t l => A.bin "'" (evName t) (evAgg l)
/-- One positional element in parentheses is a parenthesised expression, everything else an aggregate. -/
def evAgg : List Elem → V
  | [.pos e] => evExpression e
  | l => A.agg (evElems l)
def evElems : List Elem → List V
  | [] => []
  | e :: l => evElem e :: evElems l
def evElem : Elem → V
  | .pos e => evExpression e
  | .named [c] e => A.bin "assoc" (evChoice c) (evExpression e)
  | .named l e => A.bin "assoc" (A.choices (evChoices l)) (evExpression e)
def evChoices : List Choice → List V
  | [] => []
  | c :: l => evChoice c :: evChoices l
def evChoice : Choice → V
  | .discr d => evDiscr d
  | .simple s => evSimple s
  | .others => A.others
end

/-- Meaning of a waveform: one element without delay is its value. -/
def evWaveform : Waveform → V
  | .unaffected => A.unaffected
  | .elems ⟨e, none⟩ [] => evExpression A e
  | .elems h t => A.wave ((h :: t).map fun w => (evExpression A w.value, w.after.map (evExpression A)))

/-- The waveform selected by `w1 when c1 else w2 when c2 ... else w`: that of the first true condition. -/
def firstTrue (truth : V → Bool) (dflt : V) : List (V × V) → V
  | [] => dflt
  | (w, c) :: l => if truth c then w else firstTrue truth dflt l

/-- Meaning of conditional waveforms: without a final `else` the target is unaffected if no condition holds. -/
def evCondWaves (c : CondWaves) : V :=
  firstTrue A.truth ((c.dflt.map (evWaveform A)).getD A.unaffected)
    ((c.head :: c.tail).map fun p => (evWaveform A p.1, evExpression A p.2))

/-- Meaning of the operators of the AST (include/hdlConvertor/hdlAst/hdlOpType.h), as far as they are used for VHDL expressions;
`none`: the operator has no meaning for these operands. -/
def opMeaning : OpType → List V → Option V
  | .AND, [a, b] => some (A.bin "and" a b)
  | .OR, [a, b] => some (A.bin "or" a b)
  | .NAND, [a, b] => some (A.bin "nand" a b)
  | .NOR, [a, b] => some (A.bin "nor" a b)
  | .XOR, [a, b] => some (A.bin "xor" a b)
  | .XNOR, [a, b] => some (A.bin "xnor" a b)
  | .AND_UNARY, [a] => some (A.un "and" a)
  | .OR_UNARY, [a] => some (A.un "or" a)
  | .NAND_UNARY, [a] => some (A.un "nand" a)
  | .NOR_UNARY, [a] => some (A.un "nor" a)
  | .XOR_UNARY, [a] => some (A.un "xor" a)
  | .XNOR_UNARY, [a] => some (A.un "xnor" a)
  | .PLUS_UNARY, [a] => some (A.un "+" a)
  | .MINUS_UNARY, [a] => some (A.un "-" a)
  | .ABS, [a] => some (A.un "abs" a)
  | .NEG, [a] => some (A.un "not" a)
  | .ADD, [a, b] => some (A.bin "+" a b)
  | .SUB, [a, b] => some (A.bin "-" a b)
  | .CONCAT, [a, b] => some (A.bin "&" a b)
  | .MUL, [a, b] => some (A.bin "*" a b)
  | .DIV, [a, b] => some (A.bin "/" a b)
  | .MOD, [a, b] => some (A.bin "mod" a b)
  | .REM, [a, b] => some (A.bin "rem" a b)
  | .POW, [a, b] => some (A.bin "**" a b)
  | .SLL, [a, b] => some (A.bin "sll" a b)
  | .SRL, [a, b] => some (A.bin "srl" a b)
  | .SLA, [a, b] => some (A.bin "sla" a b)
  | .SRA, [a, b] => some (A.bin "sra" a b)
  | .ROL, [a, b] => some (A.bin "rol" a b)
  | .ROR, [a, b] => some (A.bin "ror" a b)
  | .EQ, [a, b] => some (A.bin "=" a b)
  | .NE, [a, b] => some (A.bin "/=" a b)
  | .LT, [a, b] => some (A.bin "<" a b)
  | .LE, [a, b] => some (A.bin "<=" a b)
  | .GT, [a, b] => some (A.bin ">" a b)
  | .GE, [a, b] => some (A.bin ">=" a b)
  | .EQ_MATCH, [a, b] => some (A.bin "?=" a b)
  | .NE_MATCH, [a, b] => some (A.bin "?/=" a b)
  | .LT_MATCH, [a, b] => some (A.bin "?<" a b)
  | .LE_MATCH, [a, b] => some (A.bin "?<=" a b)
  | .GT_MATCH, [a, b] => some (A.bin "?>" a b)
  | .GE_MATCH, [a, b] => some (A.bin "?>=" a b)
  | .INDEX, f :: l => some (A.index f l)
  | .CALL, f :: l => some (A.call f l)
  | .DOT, [a, b] => some (A.bin "." a b)
  | .APOSTROPHE, [a, b] => some (A.bin "'" a b)
  | .ARROW, [a, b] => some (A.bin "=>" a b)
  | .MAP_ASSOCIATION, [a, b] => some (A.bin "assoc" a b)
  | .RANGE, [a, b] => some (A.bin "range" a b)
  | .RANGE, [a] => some (A.un "range" a)
  | .DEFINE_RESOLVER, [a, b] => some (A.bin "resolved" a b)
  | .UNIT_SPEC, [a, b] => some (A.bin "unit" a b)
  | .DOWNTO, [a, b] => some (A.bin "downto" a b)
  | .TO, [a, b] => some (A.bin "to" a b)
  | .TERNARY, [c, t, e] => some (if A.truth c then t else e)
  | .TERNARY, [c, t] => some (if A.truth c then t else A.unaffected)
  | _, _ => none

/-- Meaning of the special symbols. -/
def symMeaning : Symb → Option V
  | .NULL => some A.nul
  | .OPEN => some A.opn
  | .ALL => some A.all
  | .OTHERS => some A.others
  | _ => none

mutual
/-- Meaning of an AST, `leaf` is the meaning of identifiers and literals. -/
def astEval (leaf : Expr → V) : Expr → Option V
  | .id p s => some (leaf (.id p s))
  | .int p v => some (leaf (.int p v))
  | .float p t => some (leaf (.float p t))
  | .str p s => some (leaf (.str p s))
  | .symb _ k => symMeaning A k
  | .arr _ l => (astEvals leaf l).map A.agg
  | .op _ o l => (astEvals leaf l).bind (opMeaning A o)
  | _ => none
def astEvals (leaf : Expr → V) : List Expr → Option (List V)
  | [] => some []
  | e :: l => do
    let v ← astEval leaf e
    let vs ← astEvals leaf l
    return v :: vs
end

end Verif.Spec
