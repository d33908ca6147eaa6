import Verif.CppString
import Verif.StrUtils
import Verif.Spec.Text
import Verif.StrUtilsLemmas
import Verif.Props.StrUtils
import Verif.OutBuffer
import Verif.Spec.Lines
import Verif.OutBufferLemmas
import Verif.Props.OutBuffer
import Verif.MacroDef
import Verif.Spec.Macro
import Verif.MacroDefLemmas
import Verif.MacroDefLemmas2
import Verif.MacroDefLemmas3
import Verif.Props.MacroDef
import Verif.Encoding
import Verif.MacroDB
import Verif.Preproc
import Verif.PreprocLemmas
import Verif.PreprocMono
import Verif.Spec.Reach
import Verif.ReachLemmas
import Verif.Props.Preproc
import Verif.Props.Preproc2
import Verif.Props.Preproc3
import Verif.Spec.Utf8
import Verif.Props.Encoding
import Verif.Convertor
import Verif.Props.Convertor
import Verif.PyProxy
import Verif.PyProxyLemmas
import Verif.PreprocTrace
import Verif.Props.PyProxy
import Verif.HdlAst
import Verif.HdlObj
import Verif.Literals
import Verif.Comments
import Verif.Spec.Literal
import Verif.LiteralLemmas
import Verif.Props.Literals
import Verif.Props.Comments
import Verif.Vhdl.Tree
import Verif.Vhdl.Expr
import Verif.Spec.VhdlSem
import Verif.VhdlExprLemmas
import Verif.Props.VhdlExpr
import Verif.ToPyExpr
import Verif.Props.Clone
import Verif.Sv.Tree
import Verif.Sv.Expr
import Verif.Sv.Decl
import Verif.Sv.Stm
import Verif.Sv.Module
import Verif.SvPlain
import Verif.Spec.SvSem
import Verif.SvExprLemmas
import Verif.Props.SvExpr
import Verif.Spec.SvDecl
import Verif.SvDeclLemmas
import Verif.Props.SvDecl
import Verif.Props.SvDecl2
import Verif.Props.SvPorts
import Verif.Props.SvList
import Verif.Spec.SvStm
import Verif.SvStmLemmas
import Verif.Props.SvStm
import Verif.Props.SvStm2
import Verif.Spec.SvModule
import Verif.SvModLemmas
import Verif.SvItemLemmas
import Verif.SvGenLemmas
import Verif.SvModuleLemmas
import Verif.Props.SvModule
import Verif.Props.SvPorts2
import Verif.Vhdl.StmTree
import Verif.Vhdl.Stm
import Verif.Vhdl.Unit
import Verif.Spec.VhdlUnit
import Verif.Spec.VhdlHier
import Verif.VhdlStmLemmas
import Verif.VhdlUnitLemmas
import Verif.Props.VhdlStm
import Verif.Props.VhdlDecl
import Verif.Props.VhdlUnit
import Verif.ToPyObj
import Verif.Spec.PyRead
import Verif.ToPyObjLemmas
import Verif.ToPyEraseLemmas
import Verif.Spec.VhdlPy
import Verif.VhdlPyLemmas
import Verif.Props.ToPyObj
import Verif.Spec.SvPy
import Verif.SvPyLemmas
import Verif.Props.SvPy
import Verif.PyRef
import Verif.Spec.PyRefs
import Verif.PyRefLemmas
import Verif.PyRefExprLemmas
import Verif.PyRefObjLemmas
import Verif.Props.PyRef
import Verif.Spec.Regex
import Verif.Antlr
import Verif.AntlrLemmas
import Verif.PpLexer
import Verif.PpParser
import Verif.Spec.PpSource
import Verif.PpLexLemmas
import Verif.PpReLemmas
import Verif.PpTokLemmas
import Verif.PpStepLemmas
import Verif.PpDirLemmas
import Verif.PpModeLemmas
import Verif.PpLexSteps
import Verif.PpArgLemmas
import Verif.PpDefLemmas
import Verif.PpParamLemmas
import Verif.PpBodyLemmas
import Verif.PpReads
import Verif.PpReadsDef
import Verif.PpRead
import Verif.PpStackLemmas
import Verif.PpBalanceLemmas
import Verif.PpTextLemmas
import Verif.Spec.PpNesting
import Verif.PpNestLemmas
import Verif.Props.PpText
import Verif.Spec.PpSem
import Verif.PpSemLemmas
import Verif.PpSemProof
import Verif.Props.PpSem
import Verif.Vhdl.Token
import Verif.Vhdl.Grammar
import Verif.Spec.VhdlText
import Verif.VhdlParseLemmas
import Verif.VhdlNameLemmas
import Verif.VhdlTextFacts
import Verif.VhdlTextLemmas
import Verif.VhdlTextMain
import Verif.VhdlTextStep
import Verif.KernelRfl
import Verif.Props.VhdlText
import Verif.Vhdl.Lexer
import Verif.Spec.VhdlLex
import Verif.VhdlLangLemmas
import Verif.VhdlRuleLemmas
import Verif.VhdlNumLemmas
import Verif.VhdlPickLemmas
import Verif.VhdlElemLemmas
import Verif.VhdlDelimLemmas
import Verif.VhdlLexMain
import Verif.Props.VhdlLex
import Verif.Sv.Token
import Verif.Sv.Grammar
import Verif.Spec.SvText
import Verif.SvParseLemmas
import Verif.SvScanLemmas
import Verif.SvTextScan
import Verif.SvTextLemmas
import Verif.SvTextMain
import Verif.SvTextStep
import Verif.SvTextArgs
import Verif.SvTextPrim
import Verif.SvTextGood
import Verif.Props.SvText
import Verif.Sv.LexToken
import Verif.Sv.Lexer
import Verif.Spec.SvLex
import Verif.SvLexLang
import Verif.SvLexPick
import Verif.SvLexElem
import Verif.SvLexMax
import Verif.SvLexMain
import Verif.SvLexDec
import Verif.Props.SvLex
import Verif.Position
import Verif.Spec.Place
import Verif.PositionLemmas
import Verif.Props.Position
import Verif.Vhdl.StmGrammar
import Verif.Spec.VhdlSeq
import Verif.VhdlReadLemmas
import Verif.VhdlSeqLemmas
import Verif.VhdlAssignLemmas
import Verif.VhdlAssignGood
import Verif.VhdlStmRead
import Verif.VhdlStmGood
import Verif.Props.VhdlSeq
import Verif.Vhdl.UnitGrammar
import Verif.Spec.VhdlDesign
import Verif.VhdlDeclRead
import Verif.VhdlIntfRead
import Verif.VhdlTypeRead
import Verif.VhdlSpecRead
import Verif.VhdlItemRead
import Verif.VhdlItemGood
import Verif.VhdlConcRead
import Verif.VhdlConcGood
import Verif.VhdlUnitRead
import Verif.Props.VhdlDesign
import Verif.VhdlFront
import Verif.VhdlNull
import Verif.Props.VhdlApi
import Verif.Sv.StmGrammar
import Verif.Spec.SvStmText
import Verif.SvStmScan
import Verif.SvStmRead
import Verif.SvStmSimple
import Verif.SvStmItem
import Verif.SvStmDecl
import Verif.SvStmFor
import Verif.SvStmHead
import Verif.SvStmGood
import Verif.Props.SvStmText
import Verif.Sv.ItemGrammar
import Verif.Spec.SvItemText
import Verif.SvItemHead
import Verif.SvItemRead
import Verif.SvItemGood
import Verif.Props.SvItemText
import Verif.Sv.ModGrammar
import Verif.Spec.SvModText
import Verif.SvModRead
import Verif.SvParItem
import Verif.SvParRead
import Verif.SvModGood
import Verif.Props.SvModText
