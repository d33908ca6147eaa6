import Verif.Convertor
import Verif.Spec.Utf8
import Verif.Vhdl.Lexer
import Verif.Vhdl.UnitGrammar
import Verif.Vhdl.Unit
/-!
# The VHDL front end: lexer, parser and visitors behind the convertor (src/hdlConvertor.cpp 24-33, include/hdlConvertor/parserContainer.h)
-/
namespace Verif.Vhdl
open Verif.Spec

/-- What is not modelled: the message for a text that is not UTF-8, the errors and the tree of the recovery of ANTLR for a text with lexical or
syntax errors, the objects already in the context if a visitor throws. -/
structure Unknown where
  bad : Str → Str
  errs : Str → List RawErr
  tree : Str → List DesignUnit
  part : Bool → List DesignUnit → List Obj

/-- The parse tree of a text (`ANTLRInputStream` decodes UTF-8), hdlConvertor.cpp 28-29. -/
def treeOf (s : Str) : Option (List DesignUnit) := (lex s).bind parseFile

/-- hdlConvertor.cpp 24-33 (`VHDLParserContainer`), parserContainer.h 87-102, designFileParser.cpp 23-33. -/
def frontEnd (x : Unknown) : Hdl (List DesignUnit) (List Obj) where
  parse txt := match utf8Decode (txt.map Char.toNat) with
    | none => .badInput (x.bad txt)
    | some s => match treeOf (s.map Char.ofNat) with
      | some t => .done [] t
      | none => .done (x.errs txt) (x.tree txt)
  convert h t c := match visitDesignFile h t with
    | .ok os => (.ok (), c ++ os)
    | .error e => (.error e, c ++ x.part h t)

end Verif.Vhdl
