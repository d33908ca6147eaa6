import Verif.Sv.Tree
import Verif.HdlAst
/-!
# Specification: what a SystemVerilog expression means and what its AST means

Both meanings are given relative to an arbitrary algebra (a set of values with an arbitrary meaning of the operators), as for VHDL
(`Verif.Spec.VhdlSem`).
-/
namespace Verif.Spec.Sv
open Verif Verif.Sv

/-- An interpretation of the operators of SystemVerilog; operators are named by their symbol. -/
structure Alg (V : Type) where
  ident : Ident → V
  /-- keywords and names of system tasks and functions -/
  kw : Str → V
  lit : Lit → V
  /-- `null`; also an unspecified width or sign of a type -/
  nul : V
  /-- the flag of a signed / unsigned type -/
  flag : Bool → V
  un : String → V → V
  bin : String → V → V → V
  cond : V → V → V → V
  /-- `{a, b, ...}` -/
  concat : List V → V
  /-- `{n {...}}` -/
  repl : V → V → V
  /-- bit select, part select, array element, array of a type -/
  index : V → V → V
  /-- a call; also a cast `t'(e)`, which differs from a call by what `t` is -/
  call : V → List V → V
  pattern : List V → V
  /-- `name #(...)`; also a vector type: keyword, width, sign -/
  param : V → List V → V
  /-- a construct of which the parts are not looked at here -/
  other : String → List V → V

def UnOp.sym : UnOp → String
  | .plus => "+" | .minus => "-" | .not => "!" | .neg => "~" | .and => "&" | .nand => "~&" | .or => "|" | .nor => "~|"
  | .xor => "^" | .nxor => "~^" | .xorn => "~^"
def BinOp.sym : BinOp → String
  | .pow => "**" | .mul => "*" | .div => "/" | .mod => "%" | .add => "+" | .sub => "-" | .shl => "<<" | .shr => ">>"
  | .ashl => "<<<" | .ashr => ">>>" | .lt => "<" | .le => "<=" | .gt => ">" | .ge => ">=" | .eq => "==" | .ne => "!="
  | .caseEq => "===" | .caseNe => "!==" | .wildEq => "==?" | .wildNe => "!=?" | .and => "&" | .xor => "^" | .nxor => "~^"
  | .xorn => "~^" | .or => "|" | .andLog => "&&" | .orLog => "||" | .impl => "->" | .equiv => "<->"
def AssignOp.sym : AssignOp → String
  | .assign => "=" | .plus => "+=" | .minus => "-=" | .mul => "*=" | .div => "/=" | .mod => "%=" | .and => "&=" | .or => "|="
  | .xor => "^=" | .shl => "<<=" | .shr => ">>=" | .ashl => "<<<=" | .ashr => ">>>="
def incDecSym (pre inc : Bool) : String :=
  if pre then (if inc then "++_" else "--_") else (if inc then "_++" else "_--")

variable {V : Type} (A : Alg V)

def evLit : Lit → V
  | .null => A.nul
  | .this => A.kw (c! "this")
  | .dolar => A.kw (c! "$")
  | l => A.lit l

def evSign : Sign → V
  | .none => A.nul
  | .signed => A.flag true
  | .unsigned => A.flag false

/-- `a::b`, `b` if there is no `a`. -/
def scope : Option V → V → V
  | none, b => b
  | some a, b => A.bin "::" a b

def evPathHead (loc : Bool) (h : PathHead) : Option V :=
  let l := if loc then some (A.kw (c! "local")) else none
  match h with
  | .root => some (scope A l (A.kw (c! "$root")))
  | .unit => some (scope A l (A.kw (c! "$unit")))
  | .this => some (scope A l (A.kw (c! "this")))
  | .super => some (scope A l (A.kw (c! "super")))
  | .thisSuper => some (A.bin "." (scope A l (A.kw (c! "this"))) (A.kw (c! "super")))
  | .items => l

/-- The value of an optional argument; an omitted one is `void`. -/
def argVal : Option V → V
  | none => A.kw (c! "void")
  | some v => v

mutual
/-- Meaning of an expression. -/
def evExp : Exp → V
  | .prim p => evPrim p
  | .opAssign => A.other "operator assignment" []
  | .tagged => A.other "tagged" []
  | .unary o p => A.un (UnOp.sym o) (evPrim p)
  | .incDec pre inc l => A.un (incDecSym pre inc) (evLVal l)
  | .bin a o b => A.bin (BinOp.sym o) (evExp a) (evExp b)
  | .tripleAnd a _ b _ => A.bin "&&&" (evExp a) (evExp b)
  | .inside e => A.other "inside" [evExp e]
  | .cond c false t e => A.cond (evExp c) (evExp t) (evExp e)
  | .cond c true t e => A.other "matches" [evExp c, evExp t, evExp e]
def evPrim : Prim → V
  | .lit l => evLit A l
  | .path p => evPath p
  | .par m => evMTM m
  | .cast => A.other "cast" []
  | .cast2 p e => A.call (evPrim p) [evExp e]
  | .bitSel p e => A.index (evPrim p) (evExp e)
  | .dot p i => A.bin "." (evPrim p) (A.ident i)
  | .index p r => A.index (evPrim p) (evARange r)
  | .concat c => evConcat c
  | .streaming => A.other "streaming" []
  | .tfCall0 f => A.call (A.kw f) []
  | .tfCall f args false => A.call (A.kw f) (evArgs none args)
  | .tfCall f args true => A.other "clocking" (A.kw f :: evArgs none args)
  | .tfCallT f t [] false => A.call (A.kw f) [evDType t]
  | .tfCallT f t args false => A.call (A.kw f) (evDType t :: evArgs none args)
  | .tfCallT f t args true => A.other "clocking" (A.kw f :: evDType t :: evArgs none args)
  | .randomize => A.other "randomize" []
  | .randomize2 => A.other "randomize" []
  | .assig false a => evPattern a
  | .assig true a => A.other "typed pattern" [evPattern a]
  | .typeRef t => evTRef t
  /- `$f()` is the call of `$f` -/
  | .call0 (.tfCall0 f) none false => A.call (A.kw f) []
  | .call0 p none false => A.call (evPrim p) []
  | .call0 p (some m) false => A.call (A.bin "." (evPrim p) (A.kw m)) []
  | .call0 p m true => A.other "with" [A.call (evPrim p) [A.kw (m.getD [])]]
  | .call p none args false => A.call (evPrim p) (evArgs none args)
  | .call p (some m) args false => A.call (A.bin "." (evPrim p) (A.kw m)) (evArgs none args)
  | .call p m args true => A.other "with" (evPrim p :: A.kw (m.getD []) :: evArgs none args)
  | .methodNoArgs p m => A.call (A.bin "." (evPrim p) (A.kw m)) []
  | .callWith p m e => A.other "with" [evPrim p, A.kw (m.getD []), evExp e]
def evMTM : MTM → V
  | .one e => evExp e
  | .three a b c => A.other "min:typ:max" [evExp a, evExp b, evExp c]
def evARange : ARange → V
  | .one e => evExp e
  | .range a b => A.bin ":" (evExp a) (evExp b)
  | .plus a b => A.bin "+:" (evExp a) (evExp b)
  | .minus a b => A.bin "-:" (evExp a) (evExp b)
def evConcat : Concat → V
  | .list l => A.concat (evExps l)
  /- the operand of a replication is always a self-determined expression, so the inner braces around a single one add nothing -/
  | .repl n (.list [e]) => A.repl (evExp n) (evExp e)
  | .repl n c => A.repl (evExp n) (evConcat c)
def evExps : List Exp → List V
  | [] => []
  | e :: l => evExp e :: evExps l
def evPath : Path → V
  | .mk loc h items => argVal A (evPathItems (evPathHead A loc h) items)
def evPathItems (s : Option V) : List PathItem → Option V
  | [] => s
  | i :: l => evPathItems (some (evPathItem s i)) l
def evPathItem (s : Option V) : PathItem → V
  | .mk i p => evPVA (scope A s (A.ident i)) p
def evPVA (v : V) : PVA → V
  | .none => v
  | .ordered l => A.param v (evPExprs l)
  | .named l => A.param v (evNamedPs l)
def evPExprs : List PExpr → List V
  | [] => []
  | e :: l => evPExpr e :: evPExprs l
def evPExpr : PExpr → V
  | .mtm m => evMTM m
  | .type t => evDType t
def evNamedPs : List NamedP → List V
  | [] => []
  | e :: l => evNamedP e :: evNamedPs l
def evNamedP : NamedP → V
  | .empty i => A.other "default value" [A.ident i]
  | .val i e => A.bin "=>" (A.ident i) (evPExpr e)
/-- Meaning of a data type. The dimensions are listed from the slowest to the fastest; a vector type holds the first one. -/
def evDType : DType → V
  | .string => A.kw (c! "string")
  | .chandle => A.kw (c! "chandle")
  | .virtual i p none => A.un "virtual" (evPVA (A.ident i) p)
  | .virtual i p (some m) => A.un "virtual" (A.bin "." (evPVA (A.ident i) p) (A.ident m))
  | .event => A.kw (c! "event")
  | .prim (.vec kw s) [] => A.param (A.kw kw) [A.nul, evSign A s]
  | .prim (.vec kw s) (.range r :: l) => evVDims (A.param (A.kw kw) [evARange r, evSign A s]) l
  | .prim (.vec kw s) (.type t :: l) => evVDims (A.param (A.kw kw) [evDType t, evSign A s]) l
  | .prim (.vec kw s) (d :: l) => evVDims (evVDim (A.param (A.kw kw) [A.nul, evSign A s]) d) l
  | .prim (.atom kw .none) l => evVDims (A.kw kw) l
  | .prim (.atom kw s) l => evVDims (A.param (A.kw kw) [A.bin "=>" (A.kw (c! "signed")) (evSign A s)]) l
  | .prim (.nonInt kw) l => evVDims (A.kw kw) l
  | .enum l => evVDims (A.other "enum" []) l
  | .struct l => evVDims (A.other "struct" []) l
  | .path p l => evVDims (evPath p) l
  | .typeRef t => evTRef t
def evVDims (t : V) : List VDim → V
  | [] => t
  | d :: l => evVDims (evVDim t d) l
def evVDim (t : V) : VDim → V
  | .empty => A.un "[]" t
  | .star => A.un "[*]" t
  | .type d => A.index t (evDType d)
  | .range r => A.index t (evARange r)
def evTRef : TRef → V
  | .expr e => A.un "type" (evExp e)
  | .type t => A.un "type" (evDType t)
def evPattern : Pattern → V
  | .list l => A.pattern (evExps l)
  | .keyed l => A.pattern (evKVs l)
  | .repl n l => A.other "'{n{}}" (evExp n :: evExps l)
def evKVs : List KV → List V
  | [] => []
  | e :: l => evKV e :: evKVs l
def evKV : KV → V
  | .mk k e => A.bin "=>" (evKey k) (evExp e)
def evKey : Key → V
  | .ident i => A.ident i
  | .dflt => A.kw (c! "default")
  | .intType => A.other "type key" []
  | .nonIntType => A.other "type key" []
  | .path p => evPath p
  | .expr e => evExp e
/-- Meaning of the target of an assignment; `{x}` is the target `x`. -/
def evLVal : LVal → V
  | .brace [l] => evLVal l
  | .brace l => A.concat (evLVals l)
  | .hier h => evHSel h
  | .pattern => A.other "pattern target" []
  | .streaming => A.other "streaming" []
def evLVals : List LVal → List V
  | [] => []
  | e :: l => evLVal e :: evLVals l
def evHSel : HSel → V
  | .mk p bits ms s => evSel (evMembers (evBits (evPath p) bits) ms) s
def evBits (v : V) : List Exp → V
  | [] => v
  | e :: l => evBits (A.index v (evExp e)) l
def evMembers (v : V) : List Member → V
  | [] => v
  | m :: l => evMembers (evMember v m) l
def evMember (v : V) : Member → V
  | .mk i bits => evBits (A.bin "." v (A.ident i)) bits
def evSel (v : V) : Sel → V
  | .none => v
  | .range a b => A.index v (A.bin ":" (evExp a) (evExp b))
  | .plus a b => A.index v (A.bin "+:" (evExp a) (evExp b))
  | .minus a b => A.index v (A.bin "-:" (evExp a) (evExp b))
/-- The arguments are what stands between the commas; `cur` is the argument that was read since the last comma. -/
def evArgs (cur : Option V) : List Arg → List V
  | [] => [argVal A cur]
  | .comma :: l => argVal A cur :: evArgs none l
  | .expr e :: l => evArgs (some (evExp e)) l
  | .namedEmpty i :: l => evArgs (some (A.bin "=>" (A.ident i) (A.kw (c! "void")))) l
  | .named i e :: l => evArgs (some (A.bin "=>" (A.ident i) (evExp e))) l
end

/-- Meaning of the operators of the AST (include/hdlConvertor/hdlAst/hdlOpType.h), as far as they are used for SystemVerilog
expressions; `none`: the operator has no meaning for these operands. -/
def opMeaning : OpType → List V → Option V
  | .PLUS_UNARY, [a] => some (A.un "+" a)
  | .MINUS_UNARY, [a] => some (A.un "-" a)
  | .NEG_LOG, [a] => some (A.un "!" a)
  | .NEG, [a] => some (A.un "~" a)
  | .AND_UNARY, [a] => some (A.un "&" a)
  | .NAND_UNARY, [a] => some (A.un "~&" a)
  | .OR_UNARY, [a] => some (A.un "|" a)
  | .NOR_UNARY, [a] => some (A.un "~|" a)
  | .XOR_UNARY, [a] => some (A.un "^" a)
  | .XNOR_UNARY, [a] => some (A.un "~^" a)
  | .INCR_PRE, [a] => some (A.un "++_" a)
  | .DECR_PRE, [a] => some (A.un "--_" a)
  | .INCR_POST, [a] => some (A.un "_++" a)
  | .DECR_POST, [a] => some (A.un "_--" a)
  | .POW, [a, b] => some (A.bin "**" a b)
  | .MUL, [a, b] => some (A.bin "*" a b)
  | .DIV, [a, b] => some (A.bin "/" a b)
  | .MOD, [a, b] => some (A.bin "%" a b)
  | .ADD, [a, b] => some (A.bin "+" a b)
  | .SUB, [a, b] => some (A.bin "-" a b)
  | .SLL, [a, b] => some (A.bin "<<" a b)
  | .SRL, [a, b] => some (A.bin ">>" a b)
  | .SLA, [a, b] => some (A.bin "<<<" a b)
  | .SRA, [a, b] => some (A.bin ">>>" a b)
  | .LT, [a, b] => some (A.bin "<" a b)
  | .LE, [a, b] => some (A.bin "<=" a b)
  | .GT, [a, b] => some (A.bin ">" a b)
  | .GE, [a, b] => some (A.bin ">=" a b)
  | .EQ, [a, b] => some (A.bin "==" a b)
  | .NE, [a, b] => some (A.bin "!=" a b)
  | .IS, [a, b] => some (A.bin "===" a b)
  | .IS_NOT, [a, b] => some (A.bin "!==" a b)
  | .EQ_MATCH, [a, b] => some (A.bin "==?" a b)
  | .NE_MATCH, [a, b] => some (A.bin "!=?" a b)
  | .AND, [a, b] => some (A.bin "&" a b)
  | .XOR, [a, b] => some (A.bin "^" a b)
  | .XNOR, [a, b] => some (A.bin "~^" a b)
  | .OR, [a, b] => some (A.bin "|" a b)
  | .AND_LOG, [a, b] => some (A.bin "&&" a b)
  | .OR_LOG, [a, b] => some (A.bin "||" a b)
  | .ARROW, [a, b] => some (A.bin "->" a b)
  | .TERNARY, [c, t, e] => some (A.cond c t e)
  | .CONCAT, [a, b] => some (A.concat [a, b])
  | .REPL_CONCAT, [a, b] => some (A.repl a b)
  | .INDEX, [a, b] => some (A.index a b)
  | .INDEX, [a] => some (A.un "[]" a)
  | .DOT, [a, b] => some (A.bin "." a b)
  | .DOUBLE_COLON, [a, b] => some (A.bin "::" a b)
  | .DOWNTO, [a, b] => some (A.bin ":" a b)
  | .PART_SELECT_POST, [a, b] => some (A.bin "+:" a b)
  | .PART_SELECT_PRE, [a, b] => some (A.bin "-:" a b)
  | .CALL, f :: l => some (A.call f l)
  | .PARAMETRIZATION, f :: l => some (A.param f l)
  | .MAP_ASSOCIATION, [a, b] => some (A.bin "=>" a b)
  | .TYPE_OF, [a] => some (A.un "type" a)
  | .ASSIGN, [a, b] => some (A.bin "=" a b)
  | .PLUS_ASSIGN, [a, b] => some (A.bin "+=" a b)
  | .MINUS_ASSIGN, [a, b] => some (A.bin "-=" a b)
  | .MUL_ASSIGN, [a, b] => some (A.bin "*=" a b)
  | .DIV_ASSIGN, [a, b] => some (A.bin "/=" a b)
  | .MOD_ASSIGN, [a, b] => some (A.bin "%=" a b)
  | .AND_ASSIGN, [a, b] => some (A.bin "&=" a b)
  | .OR_ASSIGN, [a, b] => some (A.bin "|=" a b)
  | .XOR_ASSIGN, [a, b] => some (A.bin "^=" a b)
  | .SHIFT_LEFT_ASSIGN, [a, b] => some (A.bin "<<=" a b)
  | .SHIFT_RIGHT_ASSIGN, [a, b] => some (A.bin ">>=" a b)
  | .ARITH_SHIFT_LEFT_ASSIGN, [a, b] => some (A.bin "<<<=" a b)
  | .ARITH_SHIFT_RIGHT_ASSIGN, [a, b] => some (A.bin ">>>=" a b)
  | _, _ => none

mutual
/-- Meaning of an AST, `leaf` is the meaning of identifiers and literals. -/
def astEval (leaf : Expr → V) : Expr → Option V
  | .id p s => some (leaf (.id p s))
  | .int p v => some (leaf (.int p v))
  | .float p t => some (leaf (.float p t))
  | .str p s => some (leaf (.str p s))
  | .symb _ .NULL => some A.nul
  | .arr _ l => (astEvals leaf l).map A.pattern
  | .op _ o l => (astEvals leaf l).bind (opMeaning A o)
  | _ => none
def astEvals (leaf : Expr → V) : List Expr → Option (List V)
  | [] => some []
  | e :: l => do
    let v ← astEval leaf e
    let vs ← astEvals leaf l
    return v :: vs
end

end Verif.Spec.Sv
