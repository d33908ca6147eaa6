import Verif.Spec.PpSource
/-!
# Specifications for whole Verilog sources: nesting, macro texts, sources which differ in their code only

Independent of the lexer and parser model.
-/
namespace Verif.Spec.Pp

/-! ## nesting of conditional directives (22.6) -/

/-- The directives of conditional compilation. -/
inductive CondDir
  | opens
  | elsif
  | els
  | endif
deriving DecidableEq, Repr

mutual
/-- The sequence of the conditional directives of a source: blocks one behind the other, inside of each group again such
a sequence. -/
inductive Nested : List CondDir → Prop
  | nil : Nested []
  | block {g r s : List CondDir} : Nested g → Tail r → Nested s → Nested (.opens :: g ++ r ++ s)
/-- What is behind the first group of a block: `elsif` groups, at most one `else` group, `endif`. -/
inductive Tail : List CondDir → Prop
  | endif : Tail [.endif]
  | els {g : List CondDir} : Nested g → Tail (.els :: g ++ [.endif])
  | elsif {g r : List CondDir} : Nested g → Tail r → Tail (.elsif :: g ++ r)
end

/-! ## macro texts (22.5.1) -/

/-- The text of a macro with the escaped line ends as line ends ("the newline is part of the macro text, the backslash
is not"). -/
def logical (l : List BodyPiece) : Str := l.flatMap fun x => match x with
  | .plain s => s
  | .str l => strText l
  | .esc => ['\n']

def DefTail.logical : DefTail → Str
  | .none => []
  | .body _ b => Pp.logical b
  | .args _ _ b => Pp.logical b

/-- Without the white space at both ends. -/
def strip (s : Str) : Str := ((s.dropWhile white).reverse.dropWhile white).reverse

/-- No string of the macro text is continued on the next line. -/
def DefTail.oneLineStrings : DefTail → Bool
  | .none => true
  | .body _ b => b.all fun x => match x with
    | .str l => l.all (· != .esc '\n')
    | _ => true
  | .args _ _ b => b.all fun x => match x with
    | .str l => l.all (· != .esc '\n')
    | _ => true

/-- The names of the formal arguments with their default values, as written. -/
def DefTail.formals : DefTail → List (Str × Option Str)
  | .args fs _ _ => fs.map fun f => (f.name, f.dflt.map argText)
  | _ => []

mutual
/-- The macro definitions of a source in the order of the text, with those in conditional groups. -/
def Item.defs : Item → List (Str × DefTail)
  | .define _ name tail _ => [(name, tail)]
  | .cond _ _ _ g r => g.defs ++ r.defs
  | _ => []
def Items.defs : Items → List (Str × DefTail)
  | .nil => []
  | .cons i r => i.defs ++ r.defs
def Rest.defs : Rest → List (Str × DefTail)
  | .endif _ => []
  | .els _ g _ => g.defs
  | .elif _ _ g r => g.defs ++ r.defs
end

mutual
/-- The macro definitions of a tree. -/
def nodeDefs : Node → List DefineNode
  | .define d => [d]
  | .cond _ b => branchDefs b
  | _ => []
def nodesDefs : Nodes → List DefineNode
  | .nil => []
  | .cons n r => nodeDefs n ++ nodesDefs r
def branchDefs : Branches → List DefineNode
  | .endif => []
  | .els _ g => nodesDefs g
  | .elif _ _ g r => nodesDefs g ++ branchDefs r
end

/-! ## sources which differ in code, strings, comments and layout -/

mutual
/-- A source without its code, strings and comments; the white space in directives is left out as well. -/
def Item.bare : Item → Items → Items
  | .code _, r => r
  | .str _, r => r
  | .lineComment _ _, r => r
  | .comment _, r => r
  | .define _ name tail _, r => .cons (.define [] name tail []) r
  | .undef _ name _, r => .cons (.undef [] name []) r
  | .undefineall _ _, r => .cons (.undefineall [] []) r
  | .simple kw _ _, r => .cons (.simple kw [] []) r
  | .call name, r => .cons (.call name) r
  | .callArgs name ws args, r => .cons (.callArgs name ws args) r
  | .incl _ file _ _, r => .cons (.incl [] file [] []) r
  | .cond neg _ name g t, r => .cons (.cond neg [] name g.bare t.bare) r
def Items.bare : Items → Items
  | .nil => .nil
  | .cons i r => i.bare r.bare
def Rest.bare : Rest → Rest
  | .endif _ => .endif []
  | .els _ g _ => .els [] g.bare []
  | .elif _ name g r => .elif [] name g.bare r.bare
end

mutual
/-- A tree without code and positions. -/
def nodeBare : Node → Nodes → Nodes
  | .code _ _, r => r
  | .define d, r => .cons (.define { d with line := 0, col := 0 }) r
  | .cond neg b, r => .cons (.cond neg (branchBare b)) r
  | .call c, r => .cons (.call { c with line := 0, col := 0 }) r
  | .undef n, r => .cons (.undef n) r
  | .undefineall, r => .cons .undefineall r
  | .incl _ _ (.str q), r => .cons (.incl 0 0 (.str q)) r
  | .incl _ _ (.call c), r => .cons (.incl 0 0 (.call { c with line := 0, col := 0 })) r
  | .lineDir n f, r => .cons (.lineDir n f) r
  | .nop, r => .cons .nop r
def nodesBare : Nodes → Nodes
  | .nil => .nil
  | .cons n r => nodeBare n (nodesBare r)
def branchBare : Branches → Branches
  | .endif => .endif
  | .els _ g => .els 0 (nodesBare g)
  | .elif c _ g r => .elif c 0 (nodesBare g) (branchBare r)
end

end Verif.Spec.Pp
