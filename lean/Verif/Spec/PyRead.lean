import Verif.ToPyObj
/-!
# Specification for the conversion to Python

`wf`: what an object has to fulfil to be convertible, apart from the decoding of its texts (`texts`).
`erase`: the part of an object that a reader of the Python objects can see. `readPy`: a reader of the Python objects, which looks at the
classes and attributes only.
-/
namespace Verif.Spec
open Verif

/-! ## Convertible objects -/

mutual
/-- No null pointers in operators, arrays, ranges and classes. -/
def wfE : Expr → Prop
  | .null => False
  | .arr _ l => wfEs l
  | .op _ _ l => wfEs l
  | .enumDef _ _ _ ns vs => wfPs ns vs
  | .physDef _ _ r ns vs => wfE r ∧ wfPs (ns.map some) vs
  | .classDef _ _ _ _ l _ _ => wfEs l
  | _ => True
def wfEs : List Expr → Prop
  | [] => True
  | e :: l => wfE e ∧ wfEs l
/-- The value of a pair may be null. -/
def wfPs : List (Option Str) → List Expr → Prop
  | _ :: ns, e :: l => (e = .null ∨ wfE e) ∧ wfPs ns l
  | _, _ => True
end

/-- Optional expression. -/
def wfOpt (e : Expr) : Prop := e = .null ∨ wfE e

def wfId (d : IdDef) : Prop := wfOpt d.type ∧ wfOpt d.value ∧ d.dir ≠ .UNKNOWN

mutual
/-- Every mandatory part is there, no definition has an unknown direction, and there is no `do`-`while` statement. -/
def wf : Obj → Prop
  | .null => False
  | .id d => wfId d
  | .record _ ms => ∀ d ∈ ms, wfId d
  | .fn h b => (∀ d ∈ h.params, wfId d) ∧ wfOpt h.ret ∧ wfs b
  | .inst n m g p => wfE n ∧ wfE m ∧ wfEs g ∧ wfEs p
  | .modDec _ g p l => (∀ d ∈ g, wfId d) ∧ (∀ d ∈ p, wfId d) ∧ wfs l
  | .modDef _ m d l => wfOpt m ∧ (d = .null ∨ wf d) ∧ wfs l
  | .assign _ d s dl ev _ => wfE d ∧ wfE s ∧ wfOpt dl ∧ wfEs (ev.getD [])
  | .block _ _ l => wfs l
  | .case _ _ _ s cs d => wfE s ∧ wfBs cs ∧ (d = .null ∨ wf d)
  | .expr _ e => wfE e
  | .for_ _ a c s b => wf a ∧ wfE c ∧ wf s ∧ wf b
  | .forIn _ vs c b => wfs vs ∧ wfE c ∧ wf b
  | .repeat_ _ n b => wfE n ∧ wf b
  | .while_ _ c b => wfE c ∧ wf b
  | .doWhile _ _ _ => False
  | .if_ _ c t el f => wfE c ∧ wf t ∧ wfBs el ∧ (f = .null ∨ wf f)
  | .process _ _ s b => wfEs (s.getD []) ∧ wf b
  | .import_ _ l => wfEs l
  | .return_ _ v => wfOpt v
  | .wait _ l => wfEs l
  | .idspace _ _ l => wfs l
  | .break_ _ | .continue_ _ | .nop _ | .library _ => True
def wfs : List Obj → Prop
  | [] => True
  | o :: l => wf o ∧ wfs l
def wfBs : List Branch → Prop
  | [] => True
  | .mk e o :: l => wfE e ∧ wf o ∧ wfBs l
end

/-! ## The texts of an object -/

mutual
/-- Identifiers, strings, bit strings and names of enumerators and units. -/
def textsE : Expr → List Str
  | .id _ s => [s]
  | .str _ s => [s]
  | .int _ v => if v.int.base ≠ -1 then [v.int.bitstring] else []
  | .arr _ l => textsEs l
  | .op _ _ l => textsEs l
  | .enumDef _ _ _ ns vs => textsPs ns vs
  | .physDef _ _ r ns vs => textsE r ++ textsPs (ns.map some) vs
  | .classDef _ _ _ _ l _ _ => textsEs l
  | _ => []
def textsEs : List Expr → List Str
  | [] => []
  | e :: l => textsE e ++ textsEs l
def textsPs : List (Option Str) → List Expr → List Str
  | n :: ns, e :: l => n.toList ++ textsE e ++ textsPs ns l
  | _, _ => []
end

/-- An empty name is not exported. -/
def textsName : Str → List Str
  | [] => []
  | s => [s]

def textsId (d : IdDef) : List Str := textsName d.name ++ textsE d.type ++ textsE d.value

mutual
/-- Names, labels and the texts of the expressions. -/
def texts : Obj → List Str
  | .null => []
  | .id d => textsId d
  | .record n ms => textsName n ++ ms.flatMap textsId
  | .fn h b => textsName h.name ++ h.params.flatMap textsId ++ textsE h.ret ++ textsOs b
  | .inst n m g p => textsE n ++ textsE m ++ textsEs g ++ textsEs p
  | .modDec n g p l => textsName n ++ g.flatMap textsId ++ p.flatMap textsId ++ textsOs l
  | .modDef n m d l => textsName n ++ textsE m ++ texts d ++ textsOs l
  | .assign i d s dl ev _ => textsE d ++ textsE s ++ textsE dl ++ textsEs (ev.getD []) ++ i.labels
  | .block i _ l => textsOs l ++ i.labels
  | .case i _ _ s cs d => textsE s ++ textsBs cs ++ texts d ++ i.labels
  | .expr _ e => textsE e
  | .for_ i a c s b => texts a ++ textsE c ++ texts s ++ texts b ++ i.labels
  | .forIn i vs c b => textsOs vs ++ textsE c ++ texts b ++ i.labels
  | .repeat_ i n b => textsE n ++ texts b ++ i.labels
  | .while_ i c b => textsE c ++ texts b ++ i.labels
  | .doWhile i b c => texts b ++ textsE c ++ i.labels
  | .if_ i c t el f => textsE c ++ texts t ++ textsBs el ++ texts f ++ i.labels
  | .process i _ s b => textsEs (s.getD []) ++ texts b ++ i.labels
  | .import_ i l => textsEs l ++ i.labels
  | .return_ i v => textsE v ++ i.labels
  | .wait i l => textsEs l ++ i.labels
  | .idspace n _ l => textsName n ++ textsOs l
  | .break_ i | .continue_ i | .nop i => i.labels
  | .library n => textsName n
def textsOs : List Obj → List Str
  | [] => []
  | o :: l => texts o ++ textsOs l
def textsBs : List Branch → List Str
  | [] => []
  | .mk e o :: l => textsE e ++ texts o ++ textsBs l
end

/-! ## The visible part -/

/-- A C string ends at the first NUL. -/
def cut (s : Str) : Str := s.takeWhile (· ≠ '\x00')

/-- `None` stands for the absence of an expression and for the symbols `null` and `open`. -/
def optE : Expr → Expr
  | .symb _ .NULL => .null
  | e => e

/-- The same for statements. -/
def optO : Obj → Obj
  | .expr _ (.symb _ .NULL) => .null
  | o => o

/-- The empty name is different from a name that starts with NUL. -/
def eraseName (s : Str) : Str :=
  match s, cut s with
  | [], _ => []
  | _, [] => ['\x00']
  | _, t => t

def eraseInt (v : IntVal) : IntVal :=
  ⟨if v.bits > 0 then v.bits else -1, if v.int.base ≠ -1 then ⟨0, cut v.int.bitstring, v.int.base⟩ else ⟨v.int.val, [], -1⟩⟩

mutual
/-- The visible part of an expression: no positions (but of `HdlExprNotImplemented`), no docs, no base types and flags; `open` is `null`. -/
def eraseE : Expr → Expr
  | .null => .null
  | .id _ s => .id none (cut s)
  | .int _ v => .int none (eraseInt v)
  | .float _ t => .float none t
  | .str _ s => .str none (cut s)
  | .symb _ .OPEN => .symb none .NULL
  | .symb _ k => .symb none k
  | .arr _ l => .arr none (eraseEs l)
  | .op _ o l => .op none o (eraseEs l)
  | .notImpl p => .notImpl p
  | .enumDef _ _ _ ns vs => .enumDef none [] .null (erasePs ns vs).1 (erasePs ns vs).2
  | .physDef _ _ r ns vs => .physDef none [] (eraseE r) ((erasePs (ns.map some) vs).1.map (·.getD [])) (erasePs (ns.map some) vs).2
  | .classDef _ _ _ k l _ _ => .classDef none [] [] k (eraseEs l) false false
def eraseEs : List Expr → List Expr
  | [] => []
  | e :: l => eraseE e :: eraseEs l
def erasePs : List (Option Str) → List Expr → List (Option Str) × List Expr
  | n :: ns, e :: l => (n.map cut :: (erasePs ns l).1, optE (eraseE e) :: (erasePs ns l).2)
  | _, _ => ([], [])
end

/-- The definition of a type, nothing else. -/
def plainType (d : IdDef) : Bool :=
  match d.type with
  | .symb _ .T => !d.latched && !d.const && !d.static && !d.shared && !d.alias_ && d.dir == .INTERNAL
  | _ => false

def eraseId (d : IdDef) : IdDef :=
  { d with name := eraseName d.name, type := optE (eraseE d.type), value := optE (eraseE d.value) }

/-- A definition; a type whose value is an empty struct is an empty record. -/
def idObj (d : IdDef) : Obj :=
  match d.value with
  | .classDef _ _ _ .STRUCT [] _ _ => if plainType d then .record d.name [] else .id d
  | _ => .id d

def eraseInfo (i : StmInfo) : StmInfo := ⟨i.labels.map cut, i.preproc⟩

/-- No events and an empty list of events are the same. -/
def eraseEvents : Option (List Expr) → Option (List Expr)
  | none => none
  | some [] => none
  | some l => some (eraseEs l)

mutual
/-- The visible part of an object: labels and flags of expression statements are not visible. -/
def erase : Obj → Obj
  | .null => .null
  | .id d => idObj (eraseId d)
  | .record n ms => .record (eraseName n) (ms.map eraseId)
  | .fn h b => .fn { h with name := eraseName h.name, params := h.params.map eraseId, ret := optE (eraseE h.ret) } (eraseOs b)
  | .inst n m g p => .inst (eraseE n) (eraseE m) (eraseEs g) (eraseEs p)
  | .modDec n g p l => .modDec (eraseName n) (g.map eraseId) (p.map eraseId) (eraseOs l)
  | .modDef n m d l => .modDef (eraseName n) (optE (eraseE m)) (optO (erase d)) (eraseOs l)
  | .assign i d s dl ev b => .assign (eraseInfo i) (eraseE d) (eraseE s) (optE (eraseE dl)) (eraseEvents ev) b
  | .block i j l => .block (eraseInfo i) j (eraseOs l)
  | .case i u t s cs d => .case (eraseInfo i) u t (eraseE s) (eraseBs cs) (optO (erase d))
  | .expr _ e => .expr {} (eraseE e)
  | .for_ i a c s b => .for_ (eraseInfo i) (erase a) (eraseE c) (erase s) (erase b)
  | .forIn i vs c b => .forIn (eraseInfo i) (eraseOs vs) (eraseE c) (erase b)
  | .repeat_ i n b => .repeat_ (eraseInfo i) (eraseE n) (erase b)
  | .while_ i c b => .while_ (eraseInfo i) (eraseE c) (erase b)
  | .doWhile i b c => .doWhile (eraseInfo i) (erase b) (eraseE c)
  | .if_ i c t el f => .if_ (eraseInfo i) (eraseE c) (erase t) (eraseBs el) (optO (erase f))
  | .process i t s b => .process (eraseInfo i) t (s.map eraseEs) (erase b)
  | .import_ i l => .import_ (eraseInfo i) (eraseEs l)
  | .return_ i v => .return_ (eraseInfo i) (optE (eraseE v))
  | .wait i l => .wait (eraseInfo i) (eraseEs l)
  | .idspace n d l => .idspace (eraseName n) d (eraseOs l)
  | .break_ i => .break_ (eraseInfo i)
  | .continue_ i => .continue_ (eraseInfo i)
  | .nop i => .nop (eraseInfo i)
  | .library n => .library (eraseName n)
def eraseOs : List Obj → List Obj
  | [] => []
  | o :: l => erase o :: eraseOs l
def eraseBs : List Branch → List Branch
  | [] => []
  | .mk e o :: l => .mk (eraseE e) (erase o) :: eraseBs l
end

/-! ## Reading Python objects -/

/-- What a Python value is when it is used as an expression, an object, a definition, a list of them, a text, ... -/
structure View where
  e : Expr := .null
  o : Obj := .null
  d : Option IdDef := none
  es : Option (List Expr) := none
  os : List Obj := []
  bs : List Branch := []
  ds : Option (List IdDef) := none
  ss : List Str := []
  ps : List (Option Str × Expr) := []
  br : Branch := .mk .null .null
  p : Option Str × Expr := (none, .null)
  s : Option Str := none
  i : Option Int := none
  b : Bool := false
  n : Str := []
  pos : Option CodePos := none
  /-- the members, if it is a struct of definitions -/
  r : Option (List IdDef) := none

/-- A value that is an expression. -/
def View.ofE (e : Expr) : View := { e := e, o := .expr {} e }

/-- An attribute of an instance. -/
def attr (a : List (Str × View)) (n : Str) : View := (a.lookup n).getD {}

/-- The operator with the given name. -/
def opOf (n : Str) : OpType :=
  ([.MINUS_UNARY, .PLUS_UNARY, .SUB, .ADD, .DIV, .MUL, .MOD, .REM, .POW, .ABS, .INCR_PRE, .DECR_PRE, .INCR_POST, .DECR_POST,
    .NEG_LOG, .NEG, .AND_LOG, .OR_LOG, .AND, .OR, .NAND, .NOR, .XOR, .XNOR, .OR_UNARY, .AND_UNARY, .NAND_UNARY, .NOR_UNARY, .XOR_UNARY,
    .XNOR_UNARY, .SLL, .SRL, .SLA, .SRA, .ROL, .ROR, .EQ, .NE, .IS, .IS_NOT, .LT, .LE, .GT, .GE, .EQ_MATCH, .NE_MATCH, .LT_MATCH, .LE_MATCH,
    .GT_MATCH, .GE_MATCH, .INDEX, .CONCAT, .REPL_CONCAT, .PART_SELECT_POST, .PART_SELECT_PRE, .DOT, .DOUBLE_COLON, .APOSTROPHE, .ARROW,
    .REFERENCE, .DEREFERENCE, .ASSIGN, .PLUS_ASSIGN, .MINUS_ASSIGN, .MUL_ASSIGN, .DIV_ASSIGN, .MOD_ASSIGN, .AND_ASSIGN, .OR_ASSIGN, .XOR_ASSIGN,
    .SHIFT_LEFT_ASSIGN, .SHIFT_RIGHT_ASSIGN, .ARITH_SHIFT_LEFT_ASSIGN, .ARITH_SHIFT_RIGHT_ASSIGN, .TERNARY, .CALL, .RISING, .FALLING, .DOWNTO,
    .TO, .PARAMETRIZATION, .MAP_ASSOCIATION, .RANGE, .THROUGHOUT, .DEFINE_RESOLVER, .TYPE_OF, .UNIT_SPEC] : List OpType).find?
    (fun o => match o.toString with | .ok s => s == n | .error _ => false) |>.getD .SUB

def symbOf (n : Str) : Symb :=
  if n = c! "HdlAll" then .ALL else if n = c! "HdlTypeType" then .T else if n = c! "HdlTypeAuto" then .T_AUTO
  else if n = c! "HdlTypeSubtype" then .T_SUBTYPE else if n = c! "HdlOthers" then .OTHERS else .NULL

def kindOf (n : Str) : ClassKind :=
  if n = c! "CLASS" then .CLASS else if n = c! "STRUCT" then .STRUCT else if n = c! "UNION" then .UNION else .INTERFACE

def dirOf (n : Str) : Dir :=
  if n = c! "IN" then .IN else if n = c! "OUT" then .OUT else if n = c! "INOUT" then .INOUT else if n = c! "BUFFER" then .BUFFER
  else if n = c! "LINKAGE" then .LINKAGE else if n = c! "INTERNAL" then .INTERNAL else .UNKNOWN

def joinOf (n : Str) : Join :=
  if n = c! "PAR_JOIN" then .PAR_JOIN else if n = c! "PAR_JOIN_ANY" then .PAR_JOIN_ANY else if n = c! "PAR_JOIN_NONE" then .PAR_JOIN_NONE else .SEQ

def caseOf (n : Str) : CaseType :=
  if n = c! "CASEX" then .CASEX else if n = c! "CASEZ" then .CASEZ else .CASE

def uniqOf (n : Str) : Uniq :=
  if n = c! "PRIORITY" then .PRIORITY else if n = c! "UNIQUE" then .UNIQUE else if n = c! "UNIQUE0" then .UNIQUE0 else .NONE

def triggerOf (n : Str) : Trigger :=
  if n = c! "FF" then .FF else if n = c! "COMB" then .COMB else if n = c! "LATCH" then .LATCH else .NONE

def nameOf (v : View) : Str :=
  match v.s with
  | none => []
  | some [] => ['\x00']
  | some s => s

def intOf (v bits base : View) : IntVal :=
  ⟨bits.i.getD (-1), match base.i with
    | none => ⟨v.i.getD 0, [], -1⟩
    | some b => ⟨0, v.s.getD [], b⟩⟩

def posOf (a : List (Str × View)) : Option CodePos :=
  match (attr a (c! "start_line")).i, (attr a (c! "stop_line")).i, (attr a (c! "start_column")).i, (attr a (c! "stop_column")).i with
  | some x, some y, some z, some w => some ⟨x.toNat, y.toNat, z.toNat, w.toNat⟩
  | _, _, _, _ => none

def infoOf (a : List (Str × View)) : StmInfo := ⟨(attr a (c! "labels")).ss, (attr a (c! "in_preproc")).b⟩

def defOf (a : List (Str × View)) : IdDef :=
  { name := nameOf (attr a (c! "name")), type := optE (attr a (c! "type")).e, value := optE (attr a (c! "value")).e,
    latched := (attr a (c! "is_latched")).b, const := (attr a (c! "is_const")).b, static := (attr a (c! "is_static")).b,
    shared := (attr a (c! "is_shared")).b, alias_ := (attr a (c! "is_alias")).b, dir := dirOf (attr a (c! "direction")).n }

def headOf (a : List (Str × View)) : FnHead :=
  { name := nameOf (attr a (c! "name")), ret := optE (attr a (c! "return_t")).e, params := (attr a (c! "params")).ds.getD [],
    operator := (attr a (c! "is_operator")).b, static := (attr a (c! "is_static")).b, virt := (attr a (c! "is_virtual")).b,
    task := (attr a (c! "is_task")).b, declOnly := (attr a (c! "is_declaration_only")).b, impure := (attr a (c! "is_impure")).b }

/-- A type whose value is a struct of definitions is a record. -/
def defObj (d : IdDef) (r : Option (List IdDef)) : Obj :=
  match r with
  | some ms => if plainType d then .record d.name ms else .id d
  | none => .id d

/-- Instances of the classes for expressions. -/
def exprInst (cls : Str) (a : List (Str × View)) : Option View :=
  if cls = c! "HdlValueId" then some (.ofE (.id none ((attr a (c! "val")).s.getD [])))
  else if cls = c! "HdlValueInt" then some (.ofE (.int none (intOf (attr a (c! "val")) (attr a (c! "bits")) (attr a (c! "base")))))
  else if cls = c! "HdlOp" then some (.ofE (.op none (opOf (attr a (c! "fn")).n) ((attr a (c! "ops")).es.getD [])))
  else if cls = c! "HdlExprNotImplemented" then some (.ofE (.notImpl (attr a (c! "position")).pos))
  else if cls = c! "HdlEnumDef" then some (.ofE (.enumDef none [] .null ((attr a (c! "values")).ps.map (·.1)) ((attr a (c! "values")).ps.map (·.2))))
  else if cls = c! "HdlPhysicalDef" then some (.ofE (.physDef none [] (attr a (c! "range")).e ((attr a (c! "members")).ps.map fun p => p.1.getD [])
    ((attr a (c! "members")).ps.map (·.2))))
  else if cls = c! "HdlClassDef" then
    let k := kindOf (attr a (c! "type")).n
    let e : Expr := .classDef none [] [] k ((attr a (c! "members")).es.getD []) false false
    some { View.ofE e with r := if k = .STRUCT then (attr a (c! "members")).ds else none }
  else none

/-- Instances of the classes for statements. -/
def stmInst (cls : Str) (a : List (Str × View)) : Option Obj :=
  if cls = c! "HdlStmAssign" then some (.assign (infoOf a) (attr a (c! "dst")).e (attr a (c! "src")).e (optE (attr a (c! "time_delay")).e)
    (attr a (c! "event_delay")).es (attr a (c! "is_blocking")).b)
  else if cls = c! "HdlStmBlock" then some (.block (infoOf a) (joinOf (attr a (c! "join_t")).n) (attr a (c! "body")).os)
  else if cls = c! "HdlStmCase" then some (.case (infoOf a) (uniqOf (attr a (c! "uniq_constrain")).n) (caseOf (attr a (c! "type")).n)
    (attr a (c! "switch_on")).e (attr a (c! "cases")).bs (optO (attr a (c! "default")).o))
  else if cls = c! "HdlStmFor" then some (.for_ (infoOf a) (attr a (c! "init")).o (attr a (c! "cond")).e (attr a (c! "step")).o (attr a (c! "body")).o)
  else if cls = c! "HdlStmForIn" then some (.forIn (infoOf a) (attr a (c! "var_defs")).os (attr a (c! "collection")).e (attr a (c! "body")).o)
  else if cls = c! "HdlStmRepeat" then some (.repeat_ (infoOf a) (attr a (c! "n")).e (attr a (c! "body")).o)
  else if cls = c! "HdlStmWhile" then some (.while_ (infoOf a) (attr a (c! "cond")).e (attr a (c! "body")).o)
  else if cls = c! "HdlStmIf" then some (.if_ (infoOf a) (attr a (c! "cond")).e (attr a (c! "if_true")).o (attr a (c! "elifs")).bs
    (optO (attr a (c! "if_false")).o))
  else if cls = c! "HdlStmProcess" then some (.process (infoOf a) (triggerOf (attr a (c! "trigger_constrain")).n) (attr a (c! "sensitivity")).es
    (attr a (c! "body")).o)
  else if cls = c! "HdlStmBreak" then some (.break_ (infoOf a))
  else if cls = c! "HdlStmContinue" then some (.continue_ (infoOf a))
  else if cls = c! "HdlStmNop" then some (.nop (infoOf a))
  else if cls = c! "HdlImport" then some (.import_ (infoOf a) ((attr a (c! "path")).es.getD []))
  else if cls = c! "HdlStmReturn" then some (.return_ (infoOf a) (optE (attr a (c! "val")).e))
  else if cls = c! "HdlStmWait" then some (.wait (infoOf a) ((attr a (c! "val")).es.getD []))
  else none

/-- Instances of the classes for other objects. -/
def objInst (cls : Str) (a : List (Str × View)) : Option Obj :=
  if cls = c! "HdlFunctionDef" then some (.fn (headOf a) (attr a (c! "body")).os)
  else if cls = c! "HdlCompInst" then some (.inst (attr a (c! "name")).e (attr a (c! "module_name")).e ((attr a (c! "param_map")).es.getD [])
    ((attr a (c! "port_map")).es.getD []))
  else if cls = c! "HdlModuleDec" then some (.modDec (nameOf (attr a (c! "name"))) ((attr a (c! "params")).ds.getD []) ((attr a (c! "ports")).ds.getD [])
    (attr a (c! "objs")).os)
  else if cls = c! "HdlModuleDef" then some (.modDef (nameOf (attr a (c! "name"))) (optE (attr a (c! "module_name")).e) (optO (attr a (c! "dec")).o)
    (attr a (c! "objs")).os)
  else if cls = c! "HdlValueIdspace" then some (.idspace (nameOf (attr a (c! "name"))) (attr a (c! "declaration_only")).b (attr a (c! "objs")).os)
  else if cls = c! "HdlLibrary" then some (.library (nameOf (attr a (c! "name"))))
  else none

/-- An instance of a class. -/
def instView (cls : Str) (a : List (Str × View)) : View :=
  if cls = c! "CodePosition" then { pos := posOf a }
  else if cls = c! "HdlIdDef" then { d := some (defOf a), o := defObj (defOf a) (attr a (c! "value")).r }
  else match exprInst cls a with
    | some v => v
    | none => match stmInst cls a with
      | some o => { o := o }
      | none => { o := (objInst cls a).getD .null }

/-- A list. -/
def listView (l : List View) : View :=
  { e := .arr none (l.map (·.e)), o := .expr {} (.arr none (l.map (·.e))), es := some (l.map (·.e)), os := l.map (·.o), bs := l.map (·.br),
    ds := l.mapM (·.d), ss := l.map (·.s.getD []), ps := l.map (·.p) }

/-- The value `None`: `null` as an expression. -/
def noneView : View := .ofE (.symb none .NULL)

mutual
/-- Read a Python value; `enc` encodes texts. -/
def view (enc : Str → Str) : PyO → View
  | .none => noneView
  | .bool b => { b := b }
  | .str t => { View.ofE (.str none (enc t)) with s := some (enc t) }
  | .long i => { i := some i }
  | .float t => .ofE (.float none t)
  | .cls n => .ofE (.symb none (symbOf n))
  | .enum _ n => { n := n }
  | .list l => listView (views enc l)
  | .tuple a b => { br := .mk (view enc a).e (view enc b).o, p := ((view enc a).s, optE (view enc b).e) }
  | .inst cls l => instView cls (viewAttrs enc l)
def views (enc : Str → Str) : List PyO → List View
  | [] => []
  | p :: l => view enc p :: views enc l
def viewAttrs (enc : Str → Str) : List (Str × PyO) → List (Str × View)
  | [] => []
  | (n, p) :: l => (n, view enc p) :: viewAttrs enc l
end

/-- Read an object. -/
def readPy (enc : Str → Str) (p : PyO) : Obj := (view enc p).o

end Verif.Spec
