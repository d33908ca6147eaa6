import Verif.Spec.SvStmText
import Verif.Spec.SvModule
/-!
# Specification: the texts of items of SystemVerilog modules and generate blocks (IEEE 1800-2017, annexes A.1.4, A.4, A.6.1, A.6.2) and their meaning

As for statements: an item of the LRM, its texts as sequences of tokens, and its meaning relative to an arbitrary interpretation. The meaning of an
item is a list, because `assign a = b, c = d` is two assignments.
-/
namespace Verif.Spec.SvLrm
open Verif Verif.Sv Verif.Spec.Sv

/-- LRM A.4.1.1: a connection by name. -/
inductive SNamedConn
  /-- `.*` -/
  | star
  /-- `. i ( )` -/
  | empty (i : Ident)
  /-- `. i ( e )` -/
  | val (i : Ident) (e : SExp)

/-- LRM A.4.1.1: the connections of an instance. By position some can be left out, and `( )` leaves out the only one. -/
inductive SConns
  | pos (first : Option SExp) (more : List (Option SExp))
  | named (first : SNamedConn) (more : List SNamedConn)

/-- LRM A.4.2.1: the step of a generate loop. -/
inductive SGenStep
  | assign (i : Ident) (o : AssignOp) (e : SExp)
  | incDec (pre inc : Bool) (i : Ident)

/-- The keywords of types of single bits. -/
inductive SVec
  | bit | logic | reg
deriving DecidableEq, Repr

def SVec.ty : SVec → ST
  | .bit => .KW_BIT | .logic => .KW_LOGIC | .reg => .KW_REG
def SVec.text : SVec → Str
  | .bit => c! "bit" | .logic => c! "logic" | .reg => c! "reg"

/-- LRM A.2.2.1: the types of numbers. -/
inductive SNum
  | byte | shortint | int | longint | integer | time | shortreal | real | realtime
deriving DecidableEq, Repr

def SNum.ty : SNum → ST
  | .byte => .KW_BYTE | .shortint => .KW_SHORTINT | .int => .KW_INT | .longint => .KW_LONGINT | .integer => .KW_INTEGER | .time => .KW_TIME | .shortreal => .KW_SHORTREAL | .real => .KW_REAL | .realtime => .KW_REALTIME
def SNum.text : SNum → Str
  | .byte => c! "byte" | .shortint => c! "shortint" | .int => c! "int" | .longint => c! "longint" | .integer => c! "integer" | .time => c! "time" | .shortreal => c! "shortreal" | .real => c! "real" | .realtime => c! "realtime"

/-- LRM A.2.1.1: the type of a parameter: nothing, `logic`, `logic [ a : b ]`, `integer`. -/
inductive SParTy
  | plain
  | vec (k : SVec) (range : Option (SExp × SExp))
  | num (k : SNum)

/-- LRM A.2.2.1: the kinds of nets. -/
inductive SNet
  | supply0 | supply1 | tri | triand | trior | trireg | tri0 | tri1 | uwire | wire | wand | wor
deriving DecidableEq, Repr

def SNet.ty : SNet → ST
  | .supply0 => .KW_SUPPLY0 | .supply1 => .KW_SUPPLY1 | .tri => .KW_TRI | .triand => .KW_TRIAND | .trior => .KW_TRIOR | .trireg => .KW_TRIREG | .tri0 => .KW_TRI0 | .tri1 => .KW_TRI1 | .uwire => .KW_UWIRE | .wire => .KW_WIRE | .wand => .KW_WAND | .wor => .KW_WOR
def SNet.text : SNet → Str
  | .supply0 => c! "supply0" | .supply1 => c! "supply1" | .tri => c! "tri" | .triand => c! "triand" | .trior => c! "trior" | .trireg => c! "trireg" | .tri0 => c! "tri0" | .tri1 => c! "tri1" | .uwire => c! "uwire" | .wire => c! "wire" | .wand => c! "wand" | .wor => c! "wor"

mutual
inductive SItem
  | semi
  /-- `logic [ a : b ] x = e , ... ;` -/
  | vars (k : SVec) (range : Option (SExp × SExp)) (first : Ident × Option SExp) (more : List (Ident × Option SExp))
  /-- `integer x = e , ... ;` -/
  | atoms (k : SNum) (first : Ident × Option SExp) (more : List (Ident × Option SExp))
  /-- `wire [ a : b ] x = e , ... ;` -/
  | nets (k : SNet) (range : Option (SExp × SExp)) (first : Ident × Option SExp) (more : List (Ident × Option SExp))
  /-- `localparam logic [ a : b ] p = e , ... ;` -/
  | local_ (ty : SParTy) (first : Ident × SExp) (more : List (Ident × SExp))
  | assign (first : SPrim × SExp) (more : List (SPrim × SExp))
  | genvar (first : Ident) (more : List Ident)
  | initial (s : SStm)
  /-- a process whose statement has no event control in front -/
  | always (kw : AlwaysKw) (s : SStm)
  /-- `always @ ... s` -/
  | alwaysAt (kw : AlwaysKw) (e : SEvent) (s : SStm)
  /-- `m # ( . p ( e ) , ... ) u ( ... ) , ... ;` -/
  | inst (m : Ident) (params : List (Ident × SExp)) (first : Ident × SConns) (more : List (Ident × SConns))
  | ite (c : SExp) (t : SItem)
  | iteElse (c : SExp) (t f : SItem)
  | case (e : SExp) (first : SGCase) (more : List SGCase)
  /-- `for ( genvar i = v ; c ; step ) b` -/
  | for_ (genvar : Bool) (i : Ident) (v c : SExp) (step : SGenStep) (b : SItem)
  | block (label : Option Ident) (l : List SItem) (endLabel : Option Ident)
  | region (l : List SItem)
inductive SGCase
  | exprs (first : SExp) (more : List SExp) (g : SItem)
  | dflt (colon : Bool) (g : SItem)
end

/-- LRM 27.5: the text ends with an `if` without `else`, a following `else` belongs to it. -/
def SItem.openIf : SItem → Bool
  | .ite _ _ => true
  | .iteElse _ _ f => f.openIf
  | .for_ _ _ _ _ _ b => b.openIf
  | .initial s => s.openIf
  | .always _ s => s.openIf
  | .alwaysAt _ _ s => s.openIf
  | _ => false

/-- `@ ... s` -/
def SStm.isAt : SStm → Bool
  | .timing (.event _) _ => true
  | _ => false

/-! ## Texts -/

def alwaysTy : AlwaysKw → ST
  | .always => .KW_ALWAYS | .comb => .KW_ALWAYS_COMB | .ff => .KW_ALWAYS_FF | .latch => .KW_ALWAYS_LATCH

def SNamedConn.Toks : SNamedConn → List STok → Prop
  | .star => Cat (One .DOT) (One .MUL)
  | .empty i => Cat (One .DOT) (Cat (OneP (Ident.Tok i)) (Cat (One .LPAREN) (One .RPAREN)))
  | .val i e => Cat (One .DOT) (Cat (OneP (Ident.Tok i)) (inParens e.Toks))

def SConns.Toks : SConns → List STok → Prop
  | .pos a l => Cat (optToks a) (restToks (One .COMMA) optToks l)
  | .named a l => Cat a.Toks (restToks (One .COMMA) SNamedConn.Toks l)

/-- `i ( ... )` -/
def instToks (a : Ident × SConns) : List STok → Prop := Cat (OneP (Ident.Tok a.1)) (inParens a.2.Toks)

/-- `. p ( e )` -/
def paramToks (a : Ident × SExp) : List STok → Prop := Cat (One .DOT) (Cat (OneP (Ident.Tok a.1)) (inParens a.2.Toks))
/-- Parameters by name. -/
def paramsToks : List (Ident × SExp) → List STok → Prop
  | [] => Empty
  | a :: l => Cat (One .HASH) (inParens (Cat (paramToks a) (restToks (One .COMMA) paramToks l)))

def SGenStep.Toks : SGenStep → List STok → Prop
  | .assign i o e => Cat (OneP (Ident.Tok i)) (Cat (One (AssignOp.ty o)) e.Toks)
  | .incDec true inc i => Cat (One (incDecTy inc)) (OneP (Ident.Tok i))
  | .incDec false inc i => Cat (OneP (Ident.Tok i)) (One (incDecTy inc))

def genvarToks : Bool → List STok → Prop
  | true => One .KW_GENVAR
  | false => Empty

/-- `[ a : b ]` -/
def rangeToks (a b : SExp) : List STok → Prop := Cat (One .LSQUARE_BR) (Cat a.Toks (Cat (One .COLON) (Cat b.Toks (One .RSQUARE_BR))))

def optRange : Option (SExp × SExp) → List STok → Prop
  | none => Empty
  | some r => rangeToks r.1 r.2

/-- `x = e` -/
def varToks : Ident × Option SExp → List STok → Prop
  | (i, none) => OneP (Ident.Tok i)
  | (i, some e) => Cat (OneP (Ident.Tok i)) (Cat (One .ASSIGN) e.Toks)

/-- `p = e` -/
def parToks (a : Ident × SExp) : List STok → Prop := Cat (OneP (Ident.Tok a.1)) (Cat (One .ASSIGN) a.2.Toks)

def parTyToks : SParTy → List STok → Prop
  | .plain => Empty
  | .vec k r => Cat (OneT k.ty k.text) (optRange r)
  | .num k => OneT k.ty k.text

mutual
def SItem.Toks : SItem → List STok → Prop
  | .semi => One .SEMI
  | .atoms k a l => Cat (OneT k.ty k.text) (Cat (varToks a) (Cat (restToks (One .COMMA) varToks l) (One .SEMI)))
  | .vars k r a l => Cat (OneT k.ty k.text) (Cat (optRange r) (Cat (varToks a) (Cat (restToks (One .COMMA) varToks l) (One .SEMI))))
  | .nets k r a l => Cat (OneT k.ty k.text) (Cat (optRange r) (Cat (varToks a) (Cat (restToks (One .COMMA) varToks l) (One .SEMI))))
  | .local_ t a l => Cat (One .KW_LOCALPARAM) (Cat (parTyToks t) (Cat (parToks a) (Cat (restToks (One .COMMA) parToks l) (One .SEMI))))
  | .assign a l => Cat (One .KW_ASSIGN) (Cat (assignToks a.1 .ASSIGN a.2) (Cat (assignsToks l) (One .SEMI)))
  | .genvar i l => Cat (One .KW_GENVAR) (Cat (OneP (Ident.Tok i)) (Cat (restToks (One .COMMA) (fun i => OneP (Ident.Tok i)) l) (One .SEMI)))
  | .initial s => Cat (One .KW_INITIAL) s.Toks
  | .always kw s => fun w => s.plain = true ∧ s.isAt = false ∧ Cat (One (alwaysTy kw)) s.Toks w
  | .alwaysAt kw e s => Cat (One (alwaysTy kw)) (SStm.timing (.event e) s).Toks
  | .inst m ps a l => Cat (OneP (Ident.Tok m)) (Cat (paramsToks ps) (Cat (instToks a) (Cat (restToks (One .COMMA) instToks l) (One .SEMI))))
  | .ite c t => Cat (One .KW_IF) (Cat (inParens c.Toks) t.Toks)
  | .iteElse c t f => fun w => t.openIf = false ∧ Cat (One .KW_IF) (Cat (inParens c.Toks) (Cat t.Toks (Cat (One .KW_ELSE) f.Toks))) w
  | .case e c l => Cat (One .KW_CASE) (Cat (inParens e.Toks) (Cat c.Toks (Cat (gcasesToks l) (One .KW_ENDCASE))))
  | .for_ g i v c s b => Cat (One .KW_FOR) (Cat (One .LPAREN) (Cat (genvarToks g) (Cat (OneP (Ident.Tok i)) (Cat (One .ASSIGN) (Cat v.Toks (Cat (One .SEMI)
      (Cat c.Toks (Cat (One .SEMI) (Cat s.Toks (Cat (One .RPAREN) b.Toks))))))))))
  | .block n l e => Cat (One .KW_BEGIN) (Cat (labelToks n) (Cat (itemsToks l) (Cat (One .KW_END) (labelToks e))))
  | .region l => Cat (One .KW_GENERATE) (Cat (itemsToks l) (One .KW_ENDGENERATE))
def itemsToks : List SItem → List STok → Prop
  | [] => Empty
  | g :: l => Cat g.Toks (itemsToks l)
def SGCase.Toks : SGCase → List STok → Prop
  | .exprs e l g => Cat e.Toks (Cat (expsToks l) (Cat (One .COLON) g.Toks))
  | .dflt true g => Cat (One .KW_DEFAULT) (Cat (One .COLON) g.Toks)
  | .dflt false g => Cat (One .KW_DEFAULT) g.Toks
def gcasesToks : List SGCase → List STok → Prop
  | [] => Empty
  | c :: l => Cat c.Toks (gcasesToks l)
end

/-! ## Meaning -/

variable {V S M : Type} (A : Alg V) (B : SAlg V S) (N : MAlg V S M)

def SNamedConn.eval : SNamedConn → Conn V
  | .star => .all
  | .empty i => .named (A.ident i) none
  | .val i e => .named (A.ident i) (some (e.eval A))

def SConns.eval : SConns → List (Conn V)
  | .pos a l => (a :: l).map fun e => .pos (e.map (SExp.eval A))
  | .named a l => (a :: l).map (SNamedConn.eval A)

def SGenStep.eval : SGenStep → V
  | .assign i o e => A.bin (AssignOp.sym o) (A.ident i) (e.eval A)
  | .incDec pre inc i => A.un (incDecSym pre inc) (A.ident i)

def triggerOf : AlwaysKw → Trigger
  | .always => .NONE | .comb => .COMB | .ff => .FF | .latch => .LATCH

/-- The type of variables: `logic` or `logic [ a : b ]`. -/
def vecEval (k : SVec) : Option (SExp × SExp) → V
  | none => A.param (A.kw k.text) [A.nul, A.nul]
  | some r => A.param (A.kw k.text) [A.bin ":" (r.1.eval A) (r.2.eval A), A.nul]

/-- The type of nets; the type of a net which is declared with nothing but `wire` is left open. -/
def netEval (k : SNet) : Option (SExp × SExp) → V
  | none => if k = .wire then B.auto else A.kw k.text
  | some r => A.param (A.kw k.text) [A.bin ":" (r.1.eval A) (r.2.eval A), A.nul]

/-- A parameter without type has the type of its value (LRM 6.20.2). -/
def parTyEval : SParTy → V
  | .plain => B.auto
  | .vec k r => vecEval A k r
  | .num k => A.kw k.text

mutual
def SItem.eval : SItem → List M
  | .semi => [N.stm B.nop]
  /- LRM 6.21: a variable declared outside of a procedure is static. -/
  | .atoms k a l => (a :: l).map fun v => N.stm (B.decl ⟨false, true, false⟩ (A.ident v.1) (A.kw k.text) (v.2.map (SExp.eval A)))
  | .vars k r a l => (a :: l).map fun v => N.stm (B.decl ⟨false, true, false⟩ (A.ident v.1) (vecEval A k r) (v.2.map (SExp.eval A)))
  | .nets k r a l => (a :: l).map fun v => N.stm (B.decl {} (A.ident v.1) (netEval A B k r) (v.2.map (SExp.eval A)))
  | .local_ t a l => (a :: l).map fun a => N.stm (B.decl ⟨true, false, false⟩ (A.ident a.1) (parTyEval A B t) (some (a.2.eval A)))
  | .assign a l => (a :: l).map fun a => N.assign (a.1.eval A) (a.2.eval A)
  | .genvar i l => (i :: l).map fun i => N.stm (B.decl {} (A.ident i) (A.kw (c! "genvar")) none)
  | .initial s => [N.initial (s.eval A B)]
  | .always kw s => [N.always (triggerOf kw) none (s.eval A B)]
  | .alwaysAt kw e s => [N.always (triggerOf kw) (some (e.eval A)) (s.eval A B)]
  | .inst m ps a l => (a :: l).map fun a => N.inst (A.ident a.1) (A.ident m) (ps.map fun p => A.bin "=>" (A.ident p.1) (p.2.eval A)) (a.2.eval A)
  | .ite c t => [N.if_ (c.eval A) (N.block none t.eval) none]
  | .iteElse c t f => [N.if_ (c.eval A) (N.block none t.eval) (some (N.block none f.eval))]
  | .case e c l => [N.case (e.eval A) (c.values ++ gcasesValues l) (c.default <|> gcasesDefault l)]
  | .for_ g i v c s b => [N.for_ g (A.ident i) (v.eval A) (c.eval A) (s.eval A) (N.block none b.eval)]
  | .block n l _ => [N.block (n.map A.ident) (itemsEval l)]
  | .region l => itemsEval l
def itemsEval : List SItem → List M
  | [] => []
  | g :: l => g.eval ++ itemsEval l
def SGCase.values : SGCase → List (V × M)
  | .exprs e l g => (e :: l).map fun e => (e.eval A, N.block none g.eval)
  | .dflt _ _ => []
def SGCase.default : SGCase → Option M
  | .exprs _ _ _ => none
  | .dflt _ g => some (N.block none g.eval)
def gcasesValues : List SGCase → List (V × M)
  | [] => []
  | c :: l => c.values ++ gcasesValues l
def gcasesDefault : List SGCase → Option M
  | [] => none
  | c :: l => c.default <|> gcasesDefault l
end

/-! ## The names of the items -/

def SItem.isBlock : SItem → Bool
  | .block .. => true
  | _ => false

mutual
/-- The names declared outside of blocks. -/
def SItem.names : SItem → List Ident
  | .atoms _ a l => (a :: l).map Prod.fst
  | .vars _ _ a l => (a :: l).map Prod.fst
  | .nets _ _ a l => (a :: l).map Prod.fst
  | .local_ _ a l => (a :: l).map Prod.fst
  | .genvar i l => i :: l
  | .region l => itemsNames l
  | _ => []
def itemsNames : List SItem → List Ident
  | [] => []
  | g :: l => g.names ++ itemsNames l
end

end Verif.Spec.SvLrm
