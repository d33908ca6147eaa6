# Design of the formal model

Target: Nic30/hdlConvertor (C++ core in `/repo/src`, `/repo/include`, Python glue in `/repo/hdlConvertor`).
All line numbers refer to the pinned source in `/repo`, which was only read, never built or run.

## Trusted base

* The kernel of Lean 4.33.0.
* The axioms `propext`, `Classical.choice`, `Quot.sound` (the last section lists which theorem depends on which). No other axiom, no `sorry`, no `native_decide`, no `bv_decide`.
* The transcription of the C++ code to the Lean definitions. It was made by hand; every definition cites the lines it transcribes and names its simplifications.
* The semantics of the C++ standard library as written down in `CppString.lean` (`find`, `substr`, `erase`, `replace`, `at` with their out-of-range behaviour), `Literals.lean` (`stoi`, `atoi`, `strtol`, "C" locale) and of CPython's object protocol in `PyProxy.lean`, `ToPyExpr.lean`.

## Conventions

* `std::string` = `Str := List Char`, one `Char` per byte. Theorems quantify over *all* `Char`s, a superset of the bytes.
* `size_t`/`ssize_t` counters in the preprocessor output buffer are `BitVec 64`, so wrap-around is exact.
* Exceptions are a distinct outcome (`Except Exc`); state mutated before the throw is kept where it survives.
* Undefined behaviour (failing `assert`, invalid iterator, null dereference, exception in a destructor) is the outcome `Exc.ub`, or a sticky flag in the state. It is never hidden behind a default value.
* Recursion of the preprocessor is bounded by a fuel argument; C01 proves that the bound is never reached and that a larger one changes nothing. All other functions are structurally recursive.
* The lexer and the parser of the preprocessor are modelled: `Antlr.lean` is the matching algorithm of ANTLR lexers (longest match, first rule on a tie), `PpLexer.lean` the rules, modes and actions of verilogPreprocLexer.g4, `PpParser.lean` the rules of verilogPreprocParser.g4 as a recursive descent parser with the decisions of the grammar. They are part of the trusted transcription, together with the assumption that ANTLR implements the grammar. Error messages and error recovery are arbitrary: a text is either accepted with a tree or reported.
* The parser for VHDL expressions is modelled (`Vhdl/Grammar.lean`): every rule an expression can reach is the list of its parses in the order in which ANTLR prefers them (ALL(*) takes the first alternative with which the input can still be parsed), and left recursive rules are the loops with precedences ANTLR makes of them. What follows the expression in the file is an arbitrary predicate on the rest of the tokens. That ANTLR implements this order is part of the trusted base.
* The VHDL lexer is modelled in the same way (`Vhdl/Lexer.lean`), and all of the VHDL parser: expressions (`Vhdl/Grammar.lean`), sequential statements (`Vhdl/StmGrammar.lean`), declarations, concurrent statements and design units (`Vhdl/UnitGrammar.lean`). The SystemVerilog lexer is modelled too (`Sv/Lexer.lean`); its predicates on the version are conditions on the rules. Of the SystemVerilog parser the rules reachable from `expression` are modelled in the same way (`Sv/Grammar.lean`), but for the bodies of `enum`, `struct` and `randomize`, which are arbitrary parsers; likewise procedural statements (`Sv/StmGrammar.lean`), the items of modules and generate blocks (`Sv/ItemGrammar.lean`) and source texts with the headers and ports of modules (`Sv/ModGrammar.lean`), where the rules not modelled (assertions, gates, tasks and functions, classes) are arbitrary parsers that do not begin with certain tokens. The rest of the SystemVerilog parser (the declarations named above, modules in modules, interfaces, packages, programs) is not modelled. A visitor is a function on parse trees (one inductive type per grammar rule, as far as the visitor looks at it) and theorems are for all trees. In the convertor "parse" is an arbitrary function in the environment, in the theorems about the visitors of the preprocessor as well (they hold for every tree).
* The file system is an arbitrary function in the environment.
* Specifications (`Verif/Spec/*`, and the parts headed "Specification" of `Verif/Props/*`) do not use functions of the model. The meaning of expressions and statements is given relative to an arbitrary algebra of values and statements, for the source and for the AST separately. "The AST has the meaning of the source" then says that operators, operands, order, grouping, flags and names are right, whatever the operators mean; the free (term) algebra turns this into injectivity.
* A property that the code violates is stated in full in `properties.jsonl`; the theorem with the suffix `_partial` covers the part that holds, the theorems with `violated` in their name prove the negation for the rest, for all instances where possible and else with a witness.

## What is modelled

| Lean | source |
|------|--------|
| `CppString` | `std::string` as used |
| `StrUtils` | src/verilogPreproc/str_utils.cpp |
| `MacroDB`, `MacroDef` | src/verilogPreproc/{a_macro_def,macro_def_verilog,default_macro_defs}.cpp |
| `OutBuffer` | src/verilogPreproc/{out_buffer,file_line_map}.cpp |
| `Preproc` | src/verilogPreproc/{verilogPreproc,verilogPreprocContainer}.cpp |
| `Encoding` | src/encodingConversions.cpp |
| `Convertor` | src/{hdlConvertor,syntaxErrorLogger}.cpp, parserContainer.h, hdlConvertor/_hdlConvertor.pyx |
| `PyProxy` | hdlConvertor/verilogPreproc.pyx with heap |
| `Literals` | src/{svConvertor,vhdlConvertor}/literalParser.cpp |
| `Comments` | include/hdlConvertor/{vhdlConvertor,svConvertor}/commentParser.h |
| `HdlAst`, `HdlObj` | src/hdlAst: expressions with `clone`, definitions, statements, modules |
| `Vhdl/Tree`, `Vhdl/Expr` | src/vhdlConvertor/{exprParser,referenceParser,operatorTypeParser}.cpp, subtype indications |
| `Sv/Tree`, `Sv/Expr` | src/svConvertor/{exprParser,exprPrimaryParser,utils}.cpp, data types of typeParser.cpp |
| `Sv/Decl` | src/svConvertor/{portParser,paramDefParser,declrParser,typeParser}.cpp, nets of moduleParser.cpp |
| `Sv/Stm` | src/svConvertor/{statementParser,delayParser,eventExprParser}.cpp |
| `Sv/Module` | src/svConvertor/{moduleInstanceParser,gateParser,programParser,generateParser,moduleParser,source_textParser,attributeParser}.cpp |
| `Vhdl/StmTree`, `Vhdl/Stm` | src/vhdlConvertor/statementParser.cpp, sequential statements |
| `Vhdl/Unit` | src/vhdlConvertor: declarations, types, interfaces, subprograms, processes, concurrent and generate statements, instances, entities, architectures, packages, design files |
| `ToPyExpr`, `ToPyObj` | hdlConvertor/toPy.h, toPy.cpp, toPy_expr.cpp, toPy_statements.cpp, toPy_type.cpp: the Python objects made |
| `PyRef` | the same files: the references created, stored and given up |
| `Antlr` | matching of lexer rules in the ANTLR runtime |
| `PpLexer`, `PpParser` | grammars/verilogPreprocLexer.g4, grammars/verilogPreprocParser.g4 |
| `Vhdl/Token`, `Vhdl/Grammar` | grammars/vhdlParser.g4: all rules reachable from `expression`, as parsed by ANTLR |
| `Vhdl/StmGrammar` | grammars/vhdlParser.g4: lines 703-873, sequential statements, as parsed by ANTLR |
| `Vhdl/UnitGrammar` | grammars/vhdlParser.g4: lines 151-628, 874-1045, declarations, concurrent statements, design units, as parsed by ANTLR |
| `Vhdl/Lexer` | grammars/vhdlLexer.g4: all rules |
| `Sv/Token`, `Sv/Grammar` | grammars/sv2017Parser.g4: all rules reachable from `expression` but for what follows `enum`, `struct`, `union`, `randomize`, as parsed by ANTLR |
| `Sv/StmGrammar` | grammars/sv2017Parser.g4: all rules reachable from `statement_or_null` but for assertions, `randsequence`, `expect`, and what follows `typedef` and `let`, as parsed by ANTLR |
| `Sv/ItemGrammar` | grammars/sv2017Parser.g4: lines 2076-2096 (instances), 2132-2172 (generate constructs), 2179-2221 and 2232-2245 (items), `always`, `initial`, `assign`, `genvar`, 79-92, 1480-1481 and 1603-1613 (nets), 770-775, 1453-1477 and 1638-1646 (ports declared in the body), data declarations; the other alternatives of the items are arbitrary parsers with restricted first tokens |
| `Sv/ModGrammar` | grammars/sv2017Parser.g4: lines 16-25 (source text), 165-170 (directions), 1439-1451 (modules), 1492-1493, 1615-1663 (parameters and ports of the header), 2236-2245 (items); `timeunits_declaration` and the other descriptions are arbitrary parsers with restricted first tokens |
| `Sv/LexToken`, `Sv/Lexer` | grammars/sv2017Lexer.g4: all rules and modes |
| `Position` | include/hdlConvertor/hdlAst/codePosition.h 25-32; include/hdlConvertor/createObject.h 13-33; places of tokens as kept by the ANTLR lexer |
| `VhdlFront` | src/hdlConvertor.cpp 24-33; include/hdlConvertor/parserContainer.h 87-102: lexer, parser and visitors of VHDL behind the convertor |

Not modelled: the ANTLR runtime but for the matching of lexer rules; the VHDL parser but for expressions; the SystemVerilog parser but for expressions; which context each object takes its code position from; doc comments of objects (other than the comment reader itself); attributes of objects; in the conversion to Python, failures of the Python runtime itself (no memory, a changed hdlConvertorAst); the reference counts of the classes in the constructor of ToPy; `src/toString.cpp`, `src/universal_fs.cpp`, `src/notImplementedLogger.cpp` (messages on stderr only).

Module layout: `Verif/<Area>.lean` = model + citations, `Verif/<Area>Lemmas.lean` = helper lemmas, `Verif/Spec/*.lean` = specifications, `Verif/Props/*.lean` = property theorems with `example`s that show that the hypotheses are met.

`seeded/LOG.jsonl` logs wrong programs: realistic bugs put into a scratch copy of the model, the theorems that failed, and the theorems that were tightened because they did not. The entries with a `note` at the end of the file are those which do not count as caught: t59, v37 and e07 were caught by no theorem (t59 was caught later, when C74 was added; e07 ran on an older model by mistake and was not repeated), z09, y13, y19 and w13 may be or are equivalent programs, and four did not compile. That a theorem failed means that its proof or one it needs no longer compiled, not that its negation was proved.

## Simplifications that matter for the reading of the theorems

* Sharing: the AST is a tree of values. The few loops that keep a raw pointer into an object that is changed afterwards are modelled by the value of the object at that time (`afterDims` in `Sv/Decl.lean`).
* A visitor that is called twice on the same parse tree gives the same result twice (it has no state but the log on stderr), so it is called once in the model.
* `assert` is undefined behaviour, whether or not the build defines `NDEBUG`.
* In the preprocessor `` `line `` and `__FILE__` follow the model of `OutBuffer`; times and random values do not occur.
* Statements: a block of one statement without label has the meaning of the statement, and `#d begin ... end` is taken to be a thread that first waits (`SAgrees` in `SvStmLemmas.lean`); the AST does not distinguish them.

## Properties

| id | property | status | note |
|----|----|----|----|
| C01 | Preprocessing terminates on every input | proved | the ANTLR parse of each single text is assumed to terminate |
| C02 | A directive-free source is reproduced verbatim | partial | Exact for every sequence of code tokens. On texts, with the model of the lexer: a text without back-ticks is reproduced or rejected, covered sources are reproduced; a slash directly in front of a string and a slash at the end of the text are rejected. |
| C03 | The line counter of the output equals the emitted newlines | proved |  |
| C04 | Line map resolves output positions to input positions | proved |  |
| C05 | Text after an `include is attributed to the including file | partial | the property is false for the code: text behind an include is attributed to the included file; the partial theorem covers texts without a change of the file |
| C06 | Macro expansion is simultaneous substitution of the formal parameters | proved |  |
| C07 | Expanding a macro with its own parameter names reproduces the body | proved |  |
| C08 | String literals in a macro body are never altered by arguments | proved |  |
| C09 | A formal parameter is substituted wherever it is a separate identifier | partial | false for a formal directly followed by an opening bracket (proved negation); holds for all other texts |
| C10 | Macro argument checking and default values | proved |  |
| C11 | Macro call arguments are split exactly at the commas | proved |  |
| C12 | Use of an undefined macro is always an error | proved |  |
| C13 | Conditional compilation selects the right branch | partial | false for `ifndef ... `elsif: the polarity is applied to the `elsif too (proved negation); proved for `ifdef chains and `ifndef without `elsif |
| C14 | Skipped branches have no effect at all | partial | holds for all contents the grammar accepts; text the grammar rejects is reported in skipped branches as well (proved negation) |
| C15 | A later `define replaces the earlier definition | partial | false: the first definition wins (proved negation); the partial theorem covers names that are not yet defined |
| C16 | `undef removes exactly the named macro | partial | the effect on the database is proved; memory safety is false (use after erase, proved negation) |
| C17 | Macros set through the API survive everything | proved |  |
| C18 | Preprocessing runs are isolated from each other | proved |  |
| C19 | Include search order | partial | false for files included through a macro text (proved negation) |
| C20 | Include and macro stacks are balanced | proved |  |
| C21 | `__LINE__ reports the line of the call | proved |  |
| C22 | `" string construction escapes correctly | proved |  |
| C23 | Trimming removes exactly the surrounding whitespace | proved |  |
| C24 | Token pasting removes every `` and keeps the rest | proved |  |
| C25 | ISO-8859-1 input is converted to UTF-8 without loss | proved |  |
| C26 | Encoding names are dispatched or rejected | partial | utf-16 input never gives a text (proved negation) |
| C27 | No AST is returned when a syntax error was reported | proved |  |
| C28 | Syntax errors point to the original source | partial | false: the line map is not used by the error logger (proved negation); holds for inputs without directives |
| C29 | Verilog integer literals keep value, base and width | partial | false for white space inside of the literal, for the sign letter, for sizes above 2^31 and for unbased unsized literals (proved negations) |
| C30 | VHDL bit string literals keep value, base and width | partial | false for octal, decimal, signed without size and sizes with underscores (proved negations); proved for all other literals |
| C31 | VHDL decimal literals keep their value | partial | false for underscores, exponents and values above 2^31 (proved negations) |
| C32 | VHDL based literals keep digits and base | partial | false: the returned digits start with # (proved negation for every literal); the base is right |
| C33 | VHDL string literals round-trip | proved |  |
| C34 | Escaped Verilog identifiers name the same object as the plain identifier | partial | false: the terminating white space stays in the name (proved negation for every identifier) |
| C35 | Doc comments keep the comment text | partial | false for the usual "-- text" (proved negation); which comments are used and their order is proved |
| C36 | Operator names are unambiguous | proved |  |
| C37 | VHDL unary operators are translated to unary operators | partial | false for the unary xnor (proved negation for every operand); proved for all other operators |
| C38 | Chained VHDL conditional waveforms evaluate with the right priority | proved | the priority is proved for all chains and all waveforms; that single waveforms keep their meaning holds only for one element without delay (negations proved) |
| C39 | Concatenations keep the order of their parts | partial | proved for all parts and all n ≥ 1 and for replications; {} yields a null pointer (negation proved) |
| C40 | Member access on the left-hand side is preserved | partial | the code drops all members of targets (negation proved for every target); proved for targets without member access |
| C41 | Call arguments keep their positions | partial | proved for all argument lists whose last argument is given; an omitted last argument is lost and p() has the AST of p (negations proved) |
| C42 | Port directions are inherited from the preceding port | partial | Proved for module definitions: ANSI lists without port declarations in the body; non-ANSI lists of simple distinct names (the last declaration counts). Violated for extern modules: the direction stays UNKNOWN and the conversion to Python raises. |
| C43 | Dimensions of one declared name do not leak to the next | partial | Full for variables, nets and parameters; for ports only if the type has its width (and is not marked var). Violated otherwise: in `input logic a [3:0], b` the port b gets the dimension of a. |
| C44 | Copies of expressions are faithful | partial | Copies are equal as seen from Python unless the tree holds an unsupported construct with a known position; exactly the trees without class definition and null operand can be copied. The code violates the claim for struct/class types and for the position of unsupported constructs. |
| C45 | preproc_macro_db behaves like a dict | partial | false for pop and for the result of setdefault (proved negations); the other laws are proved for all reachable states |
| C46 | get_body/get_params return what was defined | partial | false for the first parameter in get_body and for parameters without default in new (proved negations) |
| C47 | Macro objects are freed exactly once | partial | false without discipline (proved negations); proved for all disciplined histories |
| C48 | Predefined directives without text effect are transparent | proved |  |
| C49 | The text of a macro expansion does not depend on where the macro is called | partial | false for texts that are preprocessed again (proved negation); proved for texts without back-tick |
| C50 | A macro text is accepted exactly if its string literals are terminated | partial | false for a string that ends with an escaped backslash; proved for texts without escapes |
| C51 | `line sets the position of the following text | partial | false: proved negation |
| C52 | The chosen encoding is used for every file of a run | partial | false for includes inside of macro texts (proved negation) |
| C53 | Invalid macro texts raise a Python exception | partial | false: texts with an unterminated string end the process (proved negation) |
| C54 | Endless macro recursion is reported as ParseException | proved | for a call behind plain text, macro without parameters |
| C55 | A file that includes itself is reported as ParseException | proved | for an include behind plain text |
| C56 | Preprocessing has no out-of-range accesses | proved | use after erase of `undef is tracked separately, see C16 |
| C57 | A parse returns the objects of its own inputs | partial | false: objects of earlier calls stay in the context (proved negation); holds for the first call |
| C58 | String inputs reach the parser as given | partial | false for iso-8859-1 and non-ASCII text (proved negation) |
| C59 | Files of one call are independent | proved |  |
| C60 | VHDL character literals keep their character | partial | false for characters of more than one byte (proved negation) |
| C61 | VHDL expressions keep their meaning | partial | proved for the supported fragment (okExpression); the excluded constructs are wrong (negations proved) |
| C62 | VHDL procedure call statements are calls | proved | the meaning is proved for arguments in the supported fragment of C61, the structure for all |
| C63 | SystemVerilog expressions keep their meaning | partial | proved for the supported fragment (okExp, okDType); the excluded constructs are wrong (negations proved) |
| C67 | Unsupported SystemVerilog constructs are reported, never crash | partial | false: negations proved; the absence of crashes in the supported fragment is part of C63 and C40 |
| C82 | Preprocessing errors name the place of the construct that failed | partial | Every reached failing call or definition is reported with its place, and every ParseException names the place of a construct of a preprocessed text or lists syntax errors, except one message of SystemVerilog (unfinished `" string). False in general: that message has no place, and for a failing construct inside of the text of a macro the line counts from the start of this text but the name of the calling file is given. |
| C64 | Packed and unpacked dimensions are told apart | partial | Violated for every vector type: packed and unpacked dimensions give the same object. The dimensions themselves and their order can be read from the result. |
| C65 | Nets keep their net type | partial | Holds for implicit types with a dimension only. |
| C66 | Arguments of tasks and functions have their direction | partial | Holds for declarations in the body without var; arguments in parentheses are always inputs. |
| C72 | A list in one construct means the constructs one by one | partial | Full for instances, assignments, genvars and gates. Violated for imports. |
| C73 | Every declared name is returned once and in order | partial | Violated: parameters after leading assignments without keyword, dimensions of parameters, nets with a strength. |
| C68 | The AST of a SystemVerilog statement has the meaning of the statement | partial | Holds for the statements okStm accepts; for each construct left out there is a violation theorem. |
| C69 | Labels of statements are kept | partial | Holds for labels that are no escaped identifiers; violated by escaped labels, by an if after else and by labels at the end of a block only. |
| C70 | `initial` is a process that runs once | partial | Violated by initial fork. |
| C71 | `always` constructs are processes of their kind | partial | Violated by plain always without timing control. |
| C74 | The AST of a SystemVerilog module has the meaning of the module | partial | Holds for the modules okMod accepts; for each kind of construct left out there is a violation theorem here or in C63 to C78. |
| C75 | Gates keep their connections | partial | Violated by several outputs, arrays of gates and all gates but and, or, ..., buf, not. |
| C76 | The AST of a generate construct has the meaning of the construct | partial | Holds for the items okGItem accepts. |
| C77 | Instances keep their parameters and connections | partial | Violated by .name without parentheses and by null. |
| C78 | Tasks and functions keep their signature and body | partial | Holds for what okTf accepts; scopes, inherited argument types and directions in parentheses are dropped. |
| C79 | Generate constructs are marked as such | partial | Holds only directly inside of generate/endgenerate. |
| C81 | Port headers that mean the same give the same port | partial | Holds for types without type name; violated without type. |
| C80 | Ports declared in the body are the ports of the module | partial | Holds for lists of names that the body declares once each; violated by empty positions and explicitly named ports. Missing: meaning of modules with variables named like a port (only shown on the level of the AST). |
| C83 | VHDL sequential statements keep their meaning | partial | Holds for what okSeq accepts; wait, assert, force, delay mechanisms, matching case, selected and conditional assignments lose their meaning. |
| C84 | VHDL declarations keep their meaning | partial | Holds for what okDecl accepts; several kinds of declarations are dropped. |
| C85 | VHDL generics, ports and parameters keep their meaning | partial | Holds for what okIntfs accepts; signal parameters, bus and file parameters are lost. |
| C86 | VHDL types keep their meaning | partial | Holds for enumerations, ranges, physical types, arrays and records; access, file and protected types are lost. |
| C87 | VHDL concurrent statements keep their meaning | partial | Holds for what okConc accepts. |
| C88 | VHDL instances keep label, unit and maps | partial | Label, unit name and maps are right; the kind of the unit and the architecture are lost. Missing: maps with associations okMap excludes (C88_map_lengths covers their number). |
| C89 | VHDL design files keep their units in order | partial | Configurations, package instantiations, contexts, context references, statements of entities and generics of packages are dropped. |
| C90 | hierarchyOnly keeps the hierarchy of VHDL designs | proved |  |
| C91 | What is parsed reaches Python | partial | Exact for objects, contexts and VHDL files. Every SystemVerilog source without an empty concatenation, without do-while and without an extern module whose first port has no direction reaches Python. Unlabelled selected signal assignments in VHDL processes, do-while statements, such extern modules and empty concatenations do not. Missing: the sources with an empty concatenation that reach Python nevertheless. |
| C92 | Python gets what was parsed | partial | Exact for objects (erase says what is lost). open and null, labels of expression statements and null defaults are lost. |
| C93 | A successful conversion to Python leaks nothing | partial | Exact number of leaked references for all objects; nothing leaks for expressions and definitions without type definitions. Every context, every statement, every list attribute and every enumerator leaks. |
| C94 | A failing conversion to Python releases what it made and nothing else | partial | Holds for expressions, definitions and some statements, and for objects made earlier. Violated by every failing context, by sensitivity lists and by assignments. |
| C95 | Verilog sources are structured for the preprocessor as IEEE 1800 says | partial | Holds for the sources ok accepts (Spec/PpSource.lean says at each definition what is not covered); false for some others. |
| C96 | A macro definition is one logical line | partial | Holds for all definitions in covered sources whose strings are not continued on the next line. False for line comments, CR LF behind a backslash, block comments of several lines. |
| C97 | Comments do not influence the preprocessor | partial | Holds for comments, code and strings between directives of covered sources. False in macro texts, arguments and on directive lines. |
| C98 | No text makes the lexer of the preprocessor leave its last mode | proved |  |
| C99 | Conditional directives that do not belong together are reported | proved |  |
| C100 | A stray back-tick is reported | partial | Holds behind every covered source for a back-tick in front of any character but name starts, back-tick, quote, backslash and slash. A back-tick at the end of the text is dropped. |
| C101 | Preprocessing computes the meaning of a source | partial | Holds for everything covered by Items.ok and Sem. Not covered: redefinition, elsif behind ifndef, includes in macro texts, formal arguments in front of brackets, calls of __LINE__ and __FILE__, macro texts which expand to texts with back-ticks. Several of these are false, see C06, C13, C15, C19. |
| C102 | VHDL expressions are read with the precedence and associativity of the LRM | partial | From tokens to the AST. The parse is right for all expressions; the AST for those covered by C61 (LExpr.Ok). Not covered: allocators, external names, signatures, type conversions with subtype indications, the lexer. A call is INDEX or CALL depending on the place. |
| C103 | Parentheses around a VHDL expression do not change its meaning | partial | For the expressions covered by C61 (LExpr.Ok). |
| C104 | Text that is no VHDL expression is rejected | partial | Only the matching of brackets holds; chains of relations, mixed logical operators, signs behind multiplying operators and reserved words as attributes are accepted. |
| C105 | VHDL texts are divided into the lexical elements of the LRM | partial | Holds for the texts of Limits.supported. False for parentheses as character literals with an apostrophe two characters later, attributes with one letter between apostrophes, form feed, vertical tabulation and no-break space as separators, letters outside of ASCII in identifiers, lone carriage returns behind comments, quotation marks in extended identifiers. |
| C106 | Layout and comments do not matter in VHDL | partial | For the texts of Limits.supported (see C105). |
| C107 | Nothing of a VHDL text is lost and every token is a lexical element | partial | For texts of the characters of ISO 8859-1 but for the letter A with ring. The reserved words of PSL are identifiers, single characters that are no element are tokens, numbers and words need no separation. |
| C108 | From the characters of a VHDL expression to its AST | partial | For the texts of Limits.supported (C105) and the expressions of C102. |
| C109 | SystemVerilog expressions are read with the precedence and associativity of the LRM | partial | From tokens to the AST. The parse is right for all expressions of SExp; the AST for those covered by C63 (SExp.Ok). Not covered: attributes, inside, &&&, increment, tagged, streaming, min:typ:max, casts to keyword types, type arguments, class parameters, this, randomize, array methods, the lexer. a &&& b ? c : d is read as a &&& (b ? c : d). |
| C110 | Parentheses around a SystemVerilog expression do not change its meaning | partial | For the expressions covered by C109 and C63 (SExp.Ok). |
| C111 | Text that is no SystemVerilog expression is rejected | partial | Only that brackets are closed as often as opened (and never more), and the same for ? and : outside of brackets; not for texts with randomize, enum, struct, union, virtual, this, type or #. |
| C112 | SystemVerilog texts are divided into the lexical elements of the LRM | partial | Holds for the texts of Limits.supported, in all versions. False for edge directly in front of a bracket, escaped identifiers at the end of the text, operators of later versions in old versions, form feeds in tables, other escape sequences in strings, white space or a name with s behind an apostrophe, and the words of C114. |
| C113 | Layout and comments do not matter in SystemVerilog | partial | For the texts of Limits.supported (see C112). |
| C114 | The version decides which words are keywords | partial | For all words but the ten of disagree: incdir, include, library are names in Verilog-2001 and Verilog-2005; the other words of configurations are keywords in Verilog-2001 without configurations. |
| C115 | Nothing of a SystemVerilog text is lost and every token is a lexical element | partial | For all texts and versions; the tokens of Deviation are no lexical elements. |
| C116 | From the characters of a SystemVerilog expression to its AST | partial | For the texts of Limits.supported (C112) and the expressions of C109. |
| C117 | The position of an object is the place of its text | partial | For objects made from a rule which has read tokens, the last one without a line feed; SystemVerilog positions are places behind the preprocessor. Which rule an object is made from is not modelled. |
| C118 | VHDL sequential statements are read as the LRM says | partial | From tokens to the AST. The parse is right for all statements of Spec/VhdlSeq.lean; the AST for those covered by C83 (seqsOk). Expressions as in C102. |
| C119 | From the characters of VHDL statements to their AST | partial | For the texts of Limits.supported (C105) and the statements of C118 and C83. |
| C120 | VHDL design files are parsed as the LRM says | partial | For the constructs of Spec/VhdlDesign.lean; calls with a label, and generate bodies with end where the grammar has none (LLib.Reg), are excluded; the violations are real. |
| C121 | From the tokens of a VHDL file to its AST | partial | For the files of C120 whose constructs the AST keeps (LDesign.Ok: C61, C83, C87, C88, C89). |
| C122 | From the characters of a VHDL file to its AST | partial | For the texts of Limits.supported (C105) and the files of C121. |
| C123 | From VHDL files to Python objects | partial | For the files of C122, encoded in UTF-8, flat module lists (hierarchyOnly off), all texts decodable by Python; the attributes named by erase (C92) are not compared. |
| C124 | SystemVerilog statements are read as the LRM says | partial | From tokens to the AST. The parse is right for all statements of SStm; the AST for those C68 covers (SStm.Ok). Not covered: declarations in blocks, attributes, new, unique if, &&& and matches, case inside, foreach, randcase, disable, wait, event triggers, assertions, procedural continuous assignments, cycle delays, iff, members of structures as targets, @name followed by #, events that begin with a parenthesis; the lexer (C125). |
| C125 | From the characters of a SystemVerilog statement to the AST | partial | For the texts of Limits.supported (C112) and the statements of C124. |
| C126 | SystemVerilog module items and generate constructs are read as the LRM says | partial | From tokens to the AST. Disproved for instances with one parameter by position and two or more ports by position: they are taken for instances of primitives and left out. Otherwise the parse is right for all items of SItem; the AST for those C76 covers (SItem.Ok). Not covered: variables of types other than vectors and numbers, signed and unsigned types, nets with strengths, delays, dimensions or types of the user, declarations of parameters which are not local, types, tasks, functions, classes; gates, assertions, attributes, labels in front of blocks, strengths and delays of assignments, arrays of instances, connections .i; the lexer (C127). |
| C127 | From the characters of a SystemVerilog module item to the AST | partial | For the texts of Limits.supported (C112) and the items of C126. |
| C128 | SystemVerilog source texts of modules are read as the LRM says | partial | From tokens to the AST. For source texts of modules with parameters in the header and the body (with keyword and value, without type or with a vector, integer or real type) and ports in ANSI style or in the old style of the types bit, logic, reg, the integer and real types, the net types and ranges and with the items of C126; the AST for those C74 covers (SMod.Ok). Not covered: other parameters, other types of ports, values and dimensions of ports, modules in modules, attributes, imports, lifetimes, timeunits, other descriptions, the declarations not covered in C126; the lexer (C129). |
| C129 | From the characters of a SystemVerilog file to the AST | partial | For the texts of Limits.supported (C112) and the modules of C128. |

## Where the code violates the properties

Each item is a theorem: the negation of the property for the case described.

* C02 A directive-free source is reproduced verbatim
  * `C02_violated_witness`: C02 is false for texts with a slash directly in front of a string (IEEE 1800 A.8.3: a division by a string literal), and for a slash at the end of the text: these are rejected.
* C05 Text after an `include is attributed to the including file
  * `C05_violated_file_after_include`: C05 (violated, general form): after `<<` of an included buffer whose last entry names another file, every further line synchronisation of the including file keeps attributing the text to the *included* file.
  * `C05_violated_witness`: C05 (violated, witness): the text `x` of top.v line 3 (0-based) is attributed to inc.v line 1.
* C09 A formal parameter is substituted wherever it is a separate identifier
  * `C09_violated_witness`: C09, violated: the parameter `a` of the macro text `a[3]` is not replaced, because the code treats an opening bracket like a continuation of the identifier.
  * `C09_violated_general`: C09, what the code does instead, in general: the formal `f` directly followed by an opening bracket `b` stays in the text, for every value and every rest.
* C13 Conditional compilation selects the right branch
  * `C13_violated_general`: C13 is false for `` `ifndef A ... `elsif B ``: whenever `A` is defined, the `` `elsif `` branch is processed exactly if `B` is *not* defined.
  * `C13_violated_witness`: A concrete source: `A` and `B` are defined, the language selects the `` `elsif B `` branch, the output is empty.
* C14 Skipped branches have no effect at all
  * `C14_violated_witness`: C14 is false: the text of a group which is not processed decides whether there is an error.
* C15 A later `define replaces the earlier definition
  * `C15_violated_general`: C15 is false: if the name is already defined, a `` `define `` (with a text that is accepted) has no effect at all.
  * `C15_violated_witness`: `` `define X a / `define X b / `X `` gives `a`.
* C16 `undef removes exactly the named macro
  * `C16_violated_use_after_erase`: C16, memory safety, is false: every `` `undef `` of a macro that was defined in the source reads the freed map node.
  * `C16_violated_witness`: Observable at the API: `` `define X 1 / `undef X ``.
* C19 Include search order
  * `C19_violated_witness`: C19 is false for a file included through a macro: `u/sub/b.v` includes "c.v"; candidates are `u/c.v` (user) and `u/sub/c.v` (own directory, exists), but the code takes `a/c.v` from the directory of the file with the macro call.
* C26 Encoding names are dispatched or rejected
  * `C26_violated_utf16`: C26 is false for 'utf-16': there is no input for which the conversion is defined. (The object is used as an object of another type; with the usual memory layout twice the length of the text is read.)
* C28 Syntax errors point to the original source
  * `C28_violated_witness`: C28 is false: `a/top.v` includes a file with two lines; the error is in line 2 of `a/top.v` but line 3 is reported (and an error in the included file is reported for `a/top.v`).
  * `C28_violated_general`: C28 is false, in general: the reported line is always that of the preprocessed text and the file is always the file given by the user, whatever the line map of the preprocessor says.
* C29 Verilog integer literals keep value, base and width
  * `C29_violated_ws`: C29 (violated): with white space in front of the base letter or between the sign letter and the base letter (both are legal and accepted by the lexer) the conversion fails.
  * `C29_violated_signed`: C29 (violated): the sign letter is lost. `4'sb1111` (value -1) and `4'b1111` (value 15) give the same object, so no reader of the AST can recover the value of sized literals.
  * `C29_violated_size`: C29 (violated): a size of 2^31 or more is undefined behaviour (`atoi`).
  * `C29_violated_unbased`: C29 (violated): the unsized literal `'1` (all bits one) is returned as the same object as the number `1`.
* C30 VHDL bit string literals keep value, base and width
  * `C30_violated_octal`: C30 (violated): an octal bit string without size gets two bits per digit instead of three.
  * `C30_violated_decimal`: C30 (violated): a decimal bit string is labelled with base 16.
  * `C30_violated_signed`: C30 (violated): a signed bit string without a size is refused (`std::stoi` of a text that starts with the letter `s`).
  * `C30_violated_size`: C30 (violated): an underscore in the size: the size is cut at the underscore and the first digit is lost.
* C31 VHDL decimal literals keep their value
  * `C31_violated_big`: C31 (violated): a literal of 2^31 or more overflows `atoi`, which is undefined behaviour.
  * `C31_violated_underscore`: C31 (violated): everything behind an underscore is ignored: `a_b...` is returned as `a`.
* C32 VHDL based literals keep digits and base
  * `C32_violated`: C32 (violated): the digits of a based literal `base#digits#` are returned with the `#` in front and with underscores, so the returned text is not a number in any base. The base is right. `e` is the exponent; it is ignored.
* C34 Escaped Verilog identifiers name the same object as the plain identifier
  * `C34_violated`: C34 (violated): the white space that ends an escaped identifier (the lexer includes at least one character) stays in the name.
  * `C34_violated_two`: C34 (violated): two uses of the same identifier ended by different white space get different names.
* C35 Doc comments keep the comment text
  * `C35_violated_space`: C35 (violated): the usual comment `-- text` keeps its leading space: the code looks for the space one place too far right.
  * `C35_violated_lost`: C35 (violated): if the second character of the comment is a space, the first one is lost.
  * `C35_violated_block`: C35 (violated): a block comment keeps its markers.
* C37 VHDL unary operators are translated to unary operators
  * `C37_violated_xnor`: C37 is violated: the unary `xnor` of every operand becomes the binary operator `XNOR` with one operand.
* C38 Chained VHDL conditional waveforms evaluate with the right priority
  * `C38_violated_delay`: Delays are dropped: `e after t` has the AST of `e`.
  * `C38_violated_elements`: A waveform of two elements has the AST of the member access `a.b`.
* C39 Concatenations keep the order of their parts
  * `C39_violated_empty`: C39 is violated for `{}`: the result is a null pointer, and as operand of an operator it disappears: `e + {}` becomes an addition with one operand.
* C40 Member access on the left-hand side is preserved
  * `C40_violated_member`: C40 is violated: all members are dropped, `p[bits].m1.m2...[sel]` has the AST of `p[bits][sel]`.
  * `C40_violated_member_meaning`: `p.i` and `p` are different targets.
* C41 Call arguments keep their positions
  * `C41_violated_last`: C41 is violated by an omitted last argument: it is lost, `f(l,)` has the AST of `f(l)`.
  * `C41_violated_no_arguments`: C41 is violated by calls without arguments: `p()` has the AST of `p`, whatever `p` is.
* C42 Port directions are inherited from the preceding port
  * `C42_violated_extern`: C42 is violated for `extern` modules: the direction of a port before the first keyword stays unknown, and the conversion to Python fails on it.
* C43 Dimensions of one declared name do not leak to the next
  * `C43_violated_port_declaration`: C43 is violated in port declarations: with `input logic a [hi:lo], b;` the port `b` gets the dimension of `a`, though `input logic b;` declares a port without dimension.
  * `C43_violated_ansi`: C43 is violated in ANSI port lists: `(input logic a [hi:lo], b)` gives `b` the dimension of `a`, and in `(output var logic a, b)` only `a` is a variable.
* C44 Copies of expressions are faithful
  * `C44_violated_struct`: C44 is violated: a struct or class type can not be copied; `struct {...} a, b;` fails with an exception.
  * `C44_violated_position`: C44 is violated: the position of an unsupported construct is lost in the copy, which the user can see.
* C45 preproc_macro_db behaves like a dict
  * `C45_violated_pop`: C45, violated: `pop` of a present key never removes it.
  * `C45_violated_setdefault`: C45, violated: `setdefault(k, text)` for an absent key returns the text, which is not what `db[k]` is afterwards.
* C46 get_body/get_params return what was defined
  * `C46_violated_general`: C46, violated in general; what the code does: `get_body` returns the macro text with every free-standing occurrence of the *first* parameter removed.
  * `C46_violated_witness`: the text `a+1` of a macro with the parameter `a` is returned as `+1`
  * `C46_violated_new`: C46, violated: parameters without default value given to `MacroDefVerilog.new` get lost.
* C47 Macro objects are freed exactly once
  * `C47_violated_two_keys`: C47, violated: a live object stored under a second key is freed twice at the end.
  * `C47_violated_undef`: C47, violated: an `` `undef `` of a macro defined in the sources reads the freed map node.
  * `C47_violated_stale_wrapper`: C47, violated: a wrapper obtained before `del db[k]` reads a freed object afterwards.
  * `C47_violated_leak`: C47, violated: an object that is replaced in the database is never freed: `db[k] = t1; db[k] = t2` and the end of the convertor leave it allocated.
* C49 The text of a macro expansion does not depend on where the macro is called
  * `C49_violated_witness`: C49 is false: the same macro gives three newlines and `x` in line 1, but one newline and `x` in line 2.
* C50 A macro text is accepted exactly if its string literals are terminated
  * `C50_violated_witness`: C50, violated: the text `"a\\"` is a complete string (its last character is a backslash), but the definition is refused as an unterminated string.
* C51 `line sets the position of the following text
  * `C51_violated_witness`: C51 is false: behind `` `line 100 "f.v" 0 `` the line is still 2 (should be 100), and the name of the file has its quotes twice (should be "f.v").
  * `C51_violated_general`: C51, line part, in general: a `` `line `` directive never changes the number reported by `` `__LINE__ ``.
* C52 The chosen encoding is used for every file of a run
  * `C52_violated_witness`: C52 is false: with 'iso-8859-1' the byte E9 of an included file is converted to UTF-8 if the include is written directly (`a/y.v`), but not if it comes from a macro (`a/x.v`).
* C53 Invalid macro texts raise a Python exception
  * `C53_violated_general`: C53, violated in general: assigning a text with an unterminated string ends the process, for every key and state.
  * `C53_violated_witness`: C53 is false: `db["A"] = '"x'` ends the process.
* C57 A parse returns the objects of its own inputs
  * `C57_violated_general`: C57 is false: two consecutive calls of `parse_str` on one convertor; the second one also returns the objects of the first. For any sources that are accepted.
  * `C57_violated_witness`: C57 is false: the second call returns the objects of both calls.
* C58 String inputs reach the parser as given
  * `C58_violated_general`: C58 is false: with 'iso-8859-1' every string with a character above 127 reaches the parser as another text.
  * `C58_violated_witness`: C58 is false: the text `é` with the encoding iso-8859-1 reaches the parser as two other characters.
* C60 VHDL character literals keep their character
  * `C60_violated`: C60 (violated): of a character encoded in several bytes only the first byte is kept.
* C61 VHDL expressions keep their meaning
  * `C61_violated_cond`: C61 is violated by the condition operator: `?? p` has the same AST as `p`.
  * `C61_violated_choices`: C61 is violated by alternatives in aggregates: `(c => e, ...)` and `(c | d => e, ...)` have the same AST.
  * `C61_violated_choices_meaning`: The aggregates `(c => e, ...)` and `(c | d => e, ...)` mean different things.
  * `C61_violated_aggregate`: C61 is violated by aggregates of one named element as operands: `a & (others => b)` has the AST of the association without the aggregate.
  * `C61_violated_record_constraint`: C61 is violated by record constraints: the type is lost.
* C63 SystemVerilog expressions keep their meaning
  * `C63_violated_equivalence`: C63 is violated by `<->`: `a <-> b` has the AST of `a -> b`.
  * `C63_violated_mintypmax`: C63 is violated by `min:typ:max`: only the first expression is kept.
  * `C63_violated_single_concat`: C63 is violated by one-element concatenations: `{e}` (a self-determined, unsigned value) has the AST of `e`.
  * `C63_violated_array_method`: C63 is violated by the names of array methods: all methods give the same AST.
  * `C63_violated_array_method_meaning`: The calls `a.m` and `a.m'` of different array methods mean different things.
  * `C63_violated_with`: C63 is violated by calls of array methods and `with` clauses: both are dropped.
  * `C63_violated_callWith`: C63 is violated by `p with (e)`: the expression is dropped.
  * `C63_violated_dropped`: C63 is violated by clocking events and by types of assignment patterns.
  * `C63_violated_types`: C63 is violated by `virtual` interfaces, and by `#(.p())`, which has the AST of `#(.p(null))`.
  * `C63_violated_dimensions`: C63 is violated by dimensions: `logic []` (and `logic [*]`) has the AST of `logic`; `t [*]` has the AST of `t []`.
* C67 Unsupported SystemVerilog constructs are reported, never crash
  * `C67_violated_triple_and`: C67 is violated: an expression with `&&&` reaches `assert(false)`, whatever its operands are.
  * `C67_violated_pattern_target`: C67 is violated: an assignment pattern as target fails an assertion, wherever it stands in the target.
  * `C67_violated_instances`: C67 is violated: `m #({}) a(), b();` copies the null pointer of the empty concatenation.
  * `C67_violated_typedef`: C67 is violated: `typedef foo;` dereferences a null pointer.
  * `C67_violated_case_generate`: C67 is violated: a branch of a generate `case` that stands for no or several objects fails an assertion, e.g. `1: wire a, b;`.
  * `C67_violated_else_region`: C67 is violated: a generate region with one `if` as the `else` branch of a generate `if` fails an assertion.
* C82 Preprocessing errors name the place of the construct that failed
  * `C82_violated_unfinished`: C82 is false for an unfinished `` `" `` string: no place at all is named.
  * `C82_violated_macro_text`: C82 is false for texts of macros: the message names line 2 of the source, which is an empty line; the failing call is in the second line of the text of the macro that is called in line 3.
* C64 Packed and unpacked dimensions are told apart
  * `C64_violated`: C64 is violated: `logic a [..][..];` and `logic [..][..] a;` give the same object, for every type `logic`, `bit`, `reg` and all dimensions that begin with a range.
  * `C64_violated_wide`: C64 is violated for types with width, too: `logic [..] a [..];` and `logic [..][..] a;` give the same object.
* C65 Nets keep their net type
  * `C65_violated_scalar`: C65 is violated for nets without dimensions: `wire a;`, `wand a;`, `supply0 a;` all give the automatic type.
  * `C65_violated_signed`: C65 is violated for signed nets without dimensions: `wand signed a;` is `wire signed a;`.
  * `C65_violated_data_type`: C65 is violated for nets with a data type: `wand logic [3:0] a;` is `wire logic [3:0] a;`; the result is the type of the variable `logic [3:0] a;`.
  * `C65_violated_user`: C65 is violated for user-defined net types: `foo a;` as a net declaration does not name `foo`.
  * `C65_violated_strength`: C65 and C73 are violated for nets with a strength or `vectored`/`scalared`: the whole declaration is dropped.
* C66 Arguments of tasks and functions have their direction
  * `C66_violated_ansi`: C66 is violated for arguments in parentheses: every argument is an input, whatever is written.
  * `C66_violated_var`: C66 is violated for declarations with `var` in the body: `output var logic a;` gives the direction `LINKAGE`.
* C72 A list in one construct means the constructs one by one
  * `C72_violated_import`: C72 is violated for imports: `import p::a, q::b;` is one import with the path `p, a, q, b`.
* C73 Every declared name is returned once and in order
  * `C73_violated_header`: C73 is violated: `#(A = 1, parameter B = 2)` declares `A` only; everything after the assignments is ignored.
  * `C73_violated_parameter_dimensions`: C73 and C43 are violated: the dimensions of a parameter are ignored.
  * `C65_violated_strength`: C65 and C73 are violated for nets with a strength or `vectored`/`scalared`: the whole declaration is dropped.
* C68 The AST of a SystemVerilog statement has the meaning of the statement
  * `C68_violated_unsupported`: C68 is violated by `disable`, `wait`, `->`, assertions, `force`, `randcase`, ...: they have the AST of the empty statement.
  * `C68_violated_new`: C68 is violated by `a = new ...`: it has the AST of the empty statement.
  * `C68_violated_case_inside`: C68 is violated by `case ... inside`: all items are dropped, it has the AST of a `case` without items.
  * `C68_violated_case_matches`: C68 is violated by `case ... matches`: likewise.
  * `C68_violated_unique_if`: C68 is violated by `unique if`, `unique0 if` and `priority if`: they have the AST of `if`.
  * `C68_violated_condition`: C68 is violated by `if (a &&& b)`: it has the AST of `if (a)`.
  * `C68_violated_events`: C68 is violated by `@(edge e)` and by `iff`: they have the AST of `@(e)`, `@(posedge e)`.
  * `C68_violated_repeat_event`: C68 is violated by `d = repeat (n) @e s`: it has the AST of `d = @e s`.
  * `C68_violated_time`: C68 is violated by times as delays: all of them have the same AST.
  * `C68_violated_cycle_delay`: C68 is violated by cycle delays `##n`: they have the AST of a delay by a time.
  * `C68_violated_foreach`: C68 is violated by omitted variables of `foreach`: `foreach (a[, j])` has the AST of `foreach (a[j])`.
  * `C68_violated_delayed_fork`: C68 is violated by `#d fork ... join`: the wait is one of the parallel statements.
  * `C68_violated_parameter`: C68 is violated by `parameter` in a block: it has the AST of an automatic variable.
  * `C68_violated_new_value`: C68 is violated by `x = new` in a declaration: it has the AST of a declaration without value.
  * `C68_violated_let`: C68 is violated by `let`: the declaration is dropped.
* C69 Labels of statements are kept
  * `C69_violated_escaped`: C69 is violated by escaped labels: the label keeps its backslash, while the label of a block and all names do not.
  * `C69_violated_else_if`: C69 is violated in an `else` branch: the label of an `if` there is lost.
  * `C69_violated_end`: C69 is violated by a block with a label at its end only: the AST is that of a block with the label at both ends.
* C70 `initial` is a process that runs once
  * `C70_violated_fork`: C70 is violated by `initial fork ... join`: the wait at the end is one of the parallel statements.
* C71 `always` constructs are processes of their kind
  * `C71_violated_always`: C71 is violated by plain `always` without timing control: the object is the statement, there is no process.
* C74 The AST of a SystemVerilog module has the meaning of the module
  * `C74_violated_ignored`: C74 is violated by nested checkers, assertions, `bind`, `alias`, `defparam`, ...: they are dropped.
  * `C74_violated_other`: C74 is violated by specify blocks, nested programs and interfaces, time units and specparams: they are dropped.
  * `C74_violated_description`: C74 is violated by everything that is no module in a source text: packages, interfaces, programs, classes, functions are dropped.
  * `C74_violated_body_parameters`: C74 is violated by parameters in the body of a module with a parameter list: they are local, but become parameters. `module m #() (); parameter A = x; endmodule` has the AST of `module m (); parameter A = x; endmodule`.
  * `C74_violated_local_parameter`: C74 is violated by parameters without keyword after a local parameter: `#(localparam A = 1, int B = 2)` declares `B` as a parameter that can be overridden; the AST is that of `#(localparam A = 1, parameter int B = 2)`.
  * `C74_violated_escaped`: C74 is violated by escaped module names: the name keeps its backslash, in declarations as in instances, while other names do not.
* C75 Gates keep their connections
  * `C75_violated_outputs`: C75 is violated by several outputs: `buf (a, b, i)` drives `a` and `b` with `i`, but becomes `{a, b} = i`.
  * `C75_violated_array`: C75 is violated by arrays of gates: `and g[3:0] (...)` has the AST of `and g (...)`.
  * `C75_violated_other`: C75 is violated by all other gates: `bufif0`, `nmos`, `tran`, `pullup`, ... are dropped.
* C76 The AST of a generate construct has the meaning of the construct
  * `C76_violated_parameter`: C76 is violated by parameters in generate blocks: they are dropped.
  * `C76_violated_extern`: C76 is violated by `extern` tasks and by `rand` variables in generate blocks: they are dropped.
  * `C76_violated_labels`: C76 is violated by the labels of blocks: `begin ... end : a` has the AST of `begin : a ... end`, and `begin : a ... end : a` has the label twice.
* C77 Instances keep their parameters and connections
  * `C77_violated_name`: C77 is violated by `.a`: it connects the port `a` with the signal `a`, but has the AST of `.a()`.
  * `C77_violated_null`: C77 is violated by `null`: `.a(null)` has the AST of `.a()`, and `u(null, b)` of `u(, b)`.
  * `C74_violated_escaped`: C74 is violated by escaped module names: the name keeps its backslash, in declarations as in instances, while other names do not.
* C78 Tasks and functions keep their signature and body
  * `C78_violated_scope`: C78 is violated by scopes: `function C::f` has the AST of `function f`.
  * `C78_violated_argument_type`: C78 is violated by arguments in parentheses without type: `f(int a, b)` has the AST of `f(int a, input b)`, though `b` is an `int` in the first and has no type in the second.
  * `C66_violated_ansi`: C66 is violated for arguments in parentheses: every argument is an input, whatever is written.
  * `C66_violated_var`: C66 is violated for declarations with `var` in the body: `output var logic a;` gives the direction `LINKAGE`.
* C79 Generate constructs are marked as such
  * `C79_violated`: C79 is violated by generate constructs outside of a region or inside of another one: no loop, `if` or `case` there is marked.
* C81 Port headers that mean the same give the same port
  * `C81_violated`: C81 is violated by headers without type: `input a` is `input wire a`, but the first has the type `wire`, the second the automatic type.
* C80 Ports declared in the body are the ports of the module
  * `C80_violated_empty`: C80 is violated by an empty position in the list of ports: `module m(a, , b)` has three ports, the AST two, so that connections in order are made to the wrong port.
  * `C80_violated_named`: C80 is violated by ports with explicit name: `module m(.a(b)); input b; ...` has the port `a`, the AST has the ports `a`, without direction, and `b`.
* C83 VHDL sequential statements keep their meaning
  * `C83_violated_wait`: C83 is violated by `wait`: `wait on t;` (wait for an event) and `wait for t;` (wait for some time) have the same AST.
  * `C83_violated_assert`: C83 is violated by `assert`: `assert c report s;` and `assert c severity s;` have the same AST.
  * `C83_violated_force`: C83 is violated by `force`: `t <= force e;` has the AST of `t <= e;`.
  * `C83_violated_delay`: C83 is violated by the delay mechanism: `t <= transport w;` has the AST of `t <= w;`.
  * `C83_violated_case`: C83 is violated by matching case statements: `case? e is ...` has the AST of `case e is ...`.
  * `C83_violated_selected`: C83 is violated by selected signal assignments (`with e select t <= ...;`) in a process: a null pointer stands for the statement.
  * `C83_violated_selected_ub`: C83 is violated by selected signal assignments inside another statement, or with a label: undefined behaviour (a failed `assert` or the use of a null pointer).
  * `C83_violated_selected_variable`: C83 is violated by selected variable assignments: `with e select t := ...;` becomes an assignment to the selector `e`; neither the target nor the values are in the AST.
  * `C83_violated_conditional_variable`: C83 is violated by conditional variable assignments and by `release`: the value is not in the AST.
  * `C83_violated_label`: C83: a label that is repeated behind `end` is stored twice.
* C84 VHDL declarations keep their meaning
  * `C84_violated_dropped`: C84 is violated by declarations that are not in the AST at all: files, attributes, groups, instantiations of packages and subprograms, configuration and disconnection specifications.
  * `C84_violated_signal_kind`: C84 is violated by the kind of a signal: `signal s : T bus;` has the AST of `signal s : T;`.
  * `C84_violated_alias`: C84 is violated by the signature of an alias: overloaded subprograms are not told apart.
  * `C84_violated_generics`: C84 is violated by generic subprograms and packages: they have the AST of the ones without generics.
* C85 VHDL generics, ports and parameters keep their meaning
  * `C85_violated_signal_parameter`: C85 is violated by signal parameters: the parameter `signal p : in T` has the AST of the constant parameter `p : in T`.
  * `C85_violated_bus`: C85 is violated by `bus`: it is not in the AST.
  * `C85_violated_dropped`: C85 is violated by file parameters and generic types, subprograms and packages: they are not in the AST. A call with the arguments `(f, x)` does no longer fit the parameter list.
* C86 VHDL types keep their meaning
  * `C86_violated_types`: C86 is violated by access, file and protected types: the type is declared, but what it is does not depend on the declaration.
* C87 VHDL concurrent statements keep their meaning
  * `C87_violated_postponed`: C87 is violated by `postponed`: postponed processes, calls, assertions and assignments have the AST of the others.
  * `C87_violated_guarded`: C87 is violated by `guarded` and by the delay mechanism: they are not in the AST.
  * `C87_violated_block`: C87 is violated by blocks: guard, generics and ports of a block are not in the AST.
  * `C87_violated_selected_others`: C87 is violated by selected assignments in which `others` is not last: `with s select d <= a when others, b when x;` is refused.
  * `C87_violated_case_generate`: C87 is violated by `case generate` with `others`: the AST has no default, `others` is an ordinary branch (in a `case` statement and in a selected assignment it is the default).
  * `C87_violated_alternative_label`: C87 is violated by the labels of the alternatives of an `if generate`: the label of any alternative becomes a label of the whole statement; which alternative it belongs to (and further labels) cannot be told.
* C88 VHDL instances keep label, unit and maps
  * `C88_violated_kind`: C88 is violated by the kind of the unit and by the architecture: `entity n(a)`, `configuration n` and `component n` have the same AST, though they instantiate different things.
* C89 VHDL design files keep their units in order
  * `C89_violated_dropped`: C89 is violated by configurations, instantiations of packages, context declarations and context references: they are not in the AST. The rest of the file is converted as if they were not there.
  * `C89_violated_entity_statements`: C89 is violated by statements in entities: they are not in the AST.
  * `C89_violated_package_generics`: C89 is violated by generic packages: the generics are not in the AST.
* C91 What is parsed reaches Python
  * `C91_violated_selected`: C91 is violated by selected signal assignments in a process: the file is parsed, the conversion of the result raises `ValueError`.
  * `C91_violated_do_while`: C91 is violated by `do` `while` statements: whatever the statement is, the conversion raises `TypeError`.
  * `C91_violated_extern`: C91 is violated by `extern` modules whose first port has no direction: `extern module m(wire a);` is parsed, the port should be an `inout` as in a module, but its direction stays unknown and the conversion raises `ValueError`.
  * `C91_violated_empty_concat`: C91 is violated by `{}`: `assign x = ~{};` is parsed, but what is parsed does not reach Python.
* C92 Python gets what was parsed
  * `C92_violated_open`: C92 is violated by `open`: Python cannot tell `port map (a => open)` from `port map (a => null)`.
  * `C92_violated_label`: C92 is violated by labels: Python cannot tell `l: p;` from `p;`, and the same for `assert`, `report`, `next` and `exit`.
  * `C92_violated_null`: C92 is violated by `null`: Python cannot tell `return null;` from `return;`, and `variable v : t := null;` from `variable v : t;`.
* C93 A successful conversion to Python leaks nothing
  * `C93_violated_context`: C93 is violated by every result of the converter: the list `objs` of the context is never freed, because a reference to it is never given up.
  * `C93_violated_statement`: C93 is violated by every statement that is not an expression: at least one reference (to its list of labels) is never given up.
  * `C93_violated_unit`: C93 is violated by every declaration of an entity, component or module: one reference is left for each of its three lists.
  * `C93_violated_enum`: C93 is violated by enumerations: the text of every enumerator and its value (here `None`) is never given up.
* C94 A failing conversion to Python releases what it made and nothing else
  * `C94_violated_context`: C94 is violated by every conversion that raises an exception: the context is never freed, and the reference to its list `objs` is given up twice although it is owned once, so the list is freed while the context still uses it.
  * `C94_violated_process`: C94 is violated by processes: if an item of the sensitivity list cannot be converted, the reference to the list is given up twice although it is owned once.
  * `C94_violated_assign`: C94 is violated by assignments: if the source, destination or delay cannot be converted, the null pointer is released, which is undefined behaviour (in practice the Python interpreter crashes instead of raising the exception).
  * `C94_violated_empty_concat`: C94 is violated by the SystemVerilog item `assign a = ~{};`, whatever is assigned to and whatever the operator is: the parser accepts it, the conversion of its result is undefined behaviour.
* C95 Verilog sources are structured for the preprocessor as IEEE 1800 says
  * `C95_violated_witness`: C95 is false: a macro call directly in front of a slash and another call (`` `A/`B ``), an `` `else `` with an opening parenthesis behind it, and `` `endif `` directly in front of a comment are rejected or read as calls.
* C96 A macro definition is one logical line
  * `C96_violated_line_comment`: C96 is false if the macro text is only a line comment or ends with a string and a line comment directly behind it: the next line becomes a part of the macro.
  * `C96_violated_crlf`: C96 is false for sources with CR LF line ends: a backslash at the end of the line does not continue the macro, the second line becomes code.
  * `C96_violated_block_comment`: C96 is false for a block comment of two lines: the macro ends inside of the comment.
* C97 Comments do not influence the preprocessor
  * `C97_violated_body`: C97 is false in a macro text: quotes in a line comment make it a part of the macro.
  * `C97_violated_argument`: C97 is false in arguments: a comma in a comment separates arguments.
  * `C97_violated_directive`: C97 is false on directive lines: a comment behind `` `undef ``, `` `include ``, `` `default_nettype `` is an error, behind `` `celldefine `` the directive is taken as an undefined macro, and a comment directly behind `` `else `` changes the branch.
* C100 A stray back-tick is reported
  * `C100_violated_witness`: C100 is false at the end of the text: the back-tick is dropped without an error.
* C101 Preprocessing computes the meaning of a source
  * `C101_violated_witness`: C101 is false outside of the covered sources, on whole texts: a formal argument in front of a bracket is not replaced (22.5.1 gives `x(1)`), the first of two definitions counts (22.5.1: the last one), `` `elsif B `` behind `` `ifndef A `` is taken although `B` is not defined (22.6: it is not), and the parentheses of a call `` `A() `` of a macro defined as `` `A() `` stay in the text (22.5.1 gives `x`).
* C102 VHDL expressions are read with the precedence and associativity of the LRM
  * `C102_violated_nested_call`: C102 is violated for the operator of calls: `f ( g ( x ) )` becomes an index operator with a call operator inside, although both are the same construct, and `g ( x )` alone is an index operator.
* C104 Text that is no VHDL expression is rejected
  * `C104_violated_relations`: C104 is violated: `a < b = c`, `a and b or c`, `a nand b nand c` and `a * - b` are no expressions (LRM 9.1), but are accepted and read from left to right, and as `a * (- b)`.
  * `C104_violated_attribute`: C104 is violated: `a ' begin` is accepted, though a reserved word is not the name of an attribute unless it is `range` or `subtype` (LRM 8.6).
* C105 VHDL texts are divided into the lexical elements of the LRM
  * `C105_violated_parenthesis`: C105 is violated for parentheses as character literals: `'('&'('` is read as `'`, `(`, the literal `'&'`, `(`, `'`.
  * `C105_violated_attribute`: C105 is violated for attributes with a name of one letter: the attribute `c` of `a'b` is read as a name, a character literal and a name.
  * `C105_violated_separator`: C105 is violated for form feed, vertical tabulation and no-break space between elements: these separators of the LRM are lexical errors.
  * `C105_violated_letter`: C105 is violated for the letters of ISO 8859-1 outside of ASCII: they are lexical errors in identifiers (`Å` alone is not).
  * `C105_violated_line_end`: C105 is violated for comments in texts with lone carriage returns: the next line is part of the comment.
  * `C105_violated_extended`: C105 is violated for a quotation mark in an extended identifier: `\"\` is not read as one element.
* C107 Nothing of a VHDL text is lost and every token is a lexical element
  * `C107_violated_word`: C107 is violated: the reserved words of the property specification language are read as identifiers, and `10ns` is accepted although adjacent numbers and words have to be separated.
  * `C107_violated_character`: C107 is violated: letters that are not characters of VHDL are accepted in strings, and a letter that is no digit of any base in based literals.
* C109 SystemVerilog expressions are read with the precedence and associativity of the LRM
  * `C109_violated_triple_and`: C109 is violated for `&&&` (LRM 12.6.3: the condition of `?:` is a list of expressions with `&&&` between them): `a &&& b ? c : d` is read as `a &&& (b ? c : d)`.
* C112 SystemVerilog texts are divided into the lexical elements of the LRM
  * `C112_violated_edge`: C112 is violated for `edge` directly in front of a bracket: `edge[01]` is one token.
  * `C112_violated_escaped_end`: C112 is violated for escaped identifiers at the end of the text: the backslash and the name are two tokens.
  * `C112_violated_operator`: C112 is violated for the old versions: operators of SystemVerilog are tokens there too, `++b` is `++` and a name instead of two signs and a name in Verilog-2001.
  * `C112_violated_form_feed`: C112 is violated for form feeds in tables of primitives: they are lexical errors there, and only there.
  * `C112_violated_escape`: C112 is violated for strings with other escape sequences: `"\c"` is a lexical error.
  * `C112_violated_base`: C112 is violated for white space behind an apostrophe: `4' h1` is one number, the LRM does not allow white space between the apostrophe and the base.
* C114 The version decides which words are keywords
  * `C114_violated_library`: C114 is violated: `incdir`, `include` and `library` are reserved in Verilog-2001 and Verilog-2005 but read as names.
  * `C114_violated_config`: C114 is violated: the words for configurations are no names in Verilog-2001 without configurations, although this version does not reserve them.
* C115 Nothing of a SystemVerilog text is lost and every token is a lexical element
  * `C115_violated_backslash`: C115 is violated: a lone backslash is a token although no lexical element is a backslash without a name and white space, and `4 's h1` is accepted as two numbers.
* C117 The position of an object is the place of its text
  * `C117_violated_multiline`: C117 is violated: the end of an object whose last token has a line feed in it is not a place of the text: a string over two lines ends in its first line, in a column which this line does not have.
  * `C117_violated_terminal`: C117 is violated: an object made for a single token has the position of the whole rule the token is part of: the name `NEXT` which is called for a next statement (src/vhdlConvertor/statementParser.cpp 142) has the position of the statement.
  * `C117_violated_empty`: C117 is violated: an object made for a rule which has read no token has a position which ends in front of its start: the block of the empty branch of an if statement (src/vhdlConvertor/statementParser.cpp 35, `sequence_of_statements`) starts with the word `end` behind it and ends with the word `then` in front of it.
  * `C117_violated_preprocessor`: C117 is violated: the positions of SystemVerilog objects are places of the text behind the preprocessor, not of the source (src/hdlConvertor.cpp 54-60; the map of the lines is used for error messages only): the name in line 4 of the source gets its position in line 5, for the macro is replaced by two lines.
* C120 VHDL design files are parsed as the LRM says
  * `C120_violated_labelled_call`: C120 is violated by procedure calls with a label: `l : p(x);` is read as the instantiation of a component named `p(x)`.
  * `C120_violated_architecture`: C120 is violated by the architecture of an instantiated entity: in `l : entity p(x);` the architecture `x` (LRM 11.7.1) is read as a part of the name of the entity, as if the name were `p(x)`.
  * `C120_violated_generate_end`: C120 is violated by generate statements whose body has its own `end ;` (LRM 11.9): `l : if c generate begin end; end generate;` is refused.
  * `C120_violated_alternative_begin`: C120 is violated by alternatives of a `case generate` with `begin` but without `end ;` (LRM 11.9, where `end ;` is optional): they are refused.
* C126 SystemVerilog module items and generate constructs are read as the LRM says
  * `C126_violated_instance_taken_for_primitive`: C126: `m # ( 8 ) u ( a , b ) ;`, an instance of `m` with one parameter by position (LRM A.4.1.1), is taken for an instance of a primitive with a delay (the alternative `udp_instantiation` is tried first), and those are left out: the AST has no object for it, and no error is reported. With the parameter by name, the instance is in the AST (`C126_item_text_partial`).

## Axioms

From `#print axioms` for every theorem of MANIFEST.json.

* [propext]: `C02_violated_witness`, `C09_violated_witness`, `C11_arguments`, `C14_violated_witness`, `C15_violated_witness`, `C16_violated_use_after_erase`, `C16_violated_witness`, `C19_violated_witness`, `C26_violated_utf16`, `C27_first_failing_file`, `C28_violated_witness`, `C29_violated_signed`, `C29_violated_unbased`, `C30_violated_size`, `C34_violated`, `C34_violated_two`, `C35_violated_block`, `Vhdl.C37_unary_partial`, `Vhdl.C37_violated_xnor`, `Vhdl.C38_violated_delay`, `Vhdl.C38_violated_elements`, `Sv.C39_concatenation_partial`, `Sv.C39_replication`, `Sv.C39_violated_empty`, `Sv.C40_violated_member`, `Sv.C41_arguments_partial`, `Sv.C41_system_arguments_partial`, `C44_violated_struct`, `C44_violated_position`, `C46_violated_witness`, `C46_get_params`, `C47_violated_undef`, `C47_violated_stale_wrapper`, `C49_violated_witness`, `C50_violated_witness`, `C51_violated_witness`, `C52_violated_witness`, `C53_violated_witness`, `C57_violated_general`, `C57_violated_witness`, `C58_violated_witness`, `C60_violated`, `Vhdl.C61_violated_choices`, `Vhdl.C61_violated_record_constraint`, `Sv.C63_violated_single_concat`, `Sv.C63_violated_array_method`, `Sv.C63_violated_array_method_meaning`, `Sv.C63_violated_with`, `Sv.C63_violated_callWith`, `Sv.C63_violated_dropped`, `Sv.C63_violated_types`, `Sv.C67_violated_triple_and`, `Sv.C67_violated_pattern_target`, `Sv.C67_violated_instances`, `Sv.C67_violated_typedef`, `Sv.C67_violated_case_generate`, `C82_violated_unfinished`, `C82_violated_macro_text`, `Sv.C65_violated_scalar`, `Sv.C65_violated_signed`, `Sv.C65_violated_data_type`, `Sv.C65_violated_user`, `Sv.C65_violated_strength`, `Sv.C72_violated_import`, `Sv.C73_violated_header`, `Sv.C73_violated_parameter_dimensions`, `Sv.C68_violated_case_inside`, `Sv.C68_violated_case_matches`, `Sv.C68_violated_unique_if`, `Sv.C68_violated_events`, `Sv.C68_violated_time`, `Sv.C68_violated_cycle_delay`, `Sv.C68_violated_foreach`, `Sv.C68_violated_new_value`, `Sv.C68_violated_let`, `Sv.C69_violated_else_if`, `Sv.C69_violated_end`, `Sv.C74_violated_ignored`, `Sv.C74_violated_other`, `Sv.C74_violated_body_parameters`, `Sv.C74_violated_local_parameter`, `Sv.C75_violated_outputs`, `Sv.C75_violated_other`, `Sv.C76_violated_parameter`, `Sv.C76_violated_extern`, `Sv.C76_violated_labels`, `Sv.C77_violated_name`, `Sv.C77_violated_null`, `Sv.C78_violated_scope`, `Sv.C78_violated_argument_type`, `Sv.C81_violated`, `Vhdl.C83_one_object_each`, `Vhdl.C83_violated_selected`, `Vhdl.C83_violated_selected_ub`, `Vhdl.C83_violated_selected_variable`, `Vhdl.C83_violated_conditional_variable`, `Vhdl.C83_violated_label`, `Vhdl.C84_one_object_per_name`, `Vhdl.C84_violated_dropped`, `Vhdl.C85_one_definition_per_name`, `Vhdl.C85_violated_dropped`, `Vhdl.C86_violated_types`, `Vhdl.C87_one_object_each`, `Vhdl.C87_violated_guarded`, `Vhdl.C87_violated_selected_others`, `Vhdl.C87_violated_case_generate`, `Vhdl.C88_map_lengths`, `Vhdl.C89_file_append`, `Vhdl.C89_violated_dropped`, `Vhdl.C89_violated_entity_statements`, `Vhdl.C90_no_details`, `Vhdl.C90_architecture`, `C95_violated_witness`, `C96_violated_line_comment`, `C96_violated_crlf`, `C96_violated_block_comment`, `C97_violated_body`, `C97_violated_argument`, `C97_violated_directive`, `C100_violated_witness`, `C101_violated_witness`, `Vhdl.C102_violated_nested_call`, `Vhdl.C104_violated_relations`, `Vhdl.C104_violated_attribute`, `Vhdl.C107_violated_word`, `Sv.C109_violated_triple_and`, `Sv.C112_violated_escaped_end`, `Sv.C114_violated_library`, `Sv.C114_violated_config`, `Position.C117_violated_terminal`, `Position.C117_violated_empty`, `Position.C117_violated_preprocessor`, `Vhdl.C120_violated_architecture`, `Vhdl.C120_violated_generate_end`, `Vhdl.C120_violated_alternative_begin`, `Sv.C126_violated_instance_taken_for_primitive`
* does not depend on any axioms: `C05_violated_witness`, `C14_one_branch`, `C60_partial`
* [propext, Quot.sound]: `C02_verbatim_str`, `C02_verbatim_file`, `C02_text_partial`, `C04_no_ub`, `C04_set_line`, `C04_set_line_text`, `C05_violated_file_after_include`, `C10_default_value`, `C23_trim`, `C23_trim_unique`, `C23_trim_idem`, `C23_rtrim`, `C25_iso_8859_1`, `C25_injective`, `C25_ascii`, `C26_dispatch_partial`, `C27_syntax_errors`, `C28_violated_general`, `C28_no_directives_partial`, `C29_violated_size`, `C31_partial`, `C31_violated_big`, `C31_violated_underscore`, `C34_partial`, `C36_operator_names`, `Vhdl.C38_priority`, `Sv.C40_target_meaning_partial`, `Sv.C40_violated_member_meaning`, `Sv.C41_violated_last`, `Sv.C41_violated_no_arguments`, `Sv.C42_ansi`, `Sv.C42_violated_extern`, `Sv.C43_variables`, `Sv.C43_nets`, `Sv.C43_parameters`, `Sv.C43_port_declarations_partial`, `Sv.C43_tf_ports_partial`, `Sv.C43_ansi_ports_partial`, `Sv.C43_variable_meaning_partial`, `Sv.C43_violated_port_declaration`, `Sv.C43_violated_ansi`, `C45_violated_pop`, `Vhdl.C61_violated_cond`, `Vhdl.C61_violated_choices_meaning`, `Vhdl.C61_violated_aggregate`, `Vhdl.C62_procedure_call_operands`, `Sv.C63_expression_meaning_partial`, `Sv.C63_type_meaning_partial`, `Sv.C63_expression_injective_partial`, `Sv.C63_type_injective_partial`, `Sv.C63_violated_mintypmax`, `Sv.C63_violated_dimensions`, `Sv.C67_violated_else_region`, `Sv.C64_dimensions_partial`, `Sv.C64_violated`, `Sv.C64_violated_wide`, `Sv.C65_ranged_partial`, `Sv.C65_ranged_distinct`, `Sv.C66_body_partial`, `Sv.C66_violated_ansi`, `Sv.C66_violated_var`, `Sv.C72_instances`, `Sv.C72_assignments`, `Sv.C72_genvars`, `Sv.C72_input_gates`, `Sv.C72_output_gates`, `Sv.C73_header_parameters_partial`, `Sv.C73_variables`, `Sv.C68_violated_condition`, `Sv.C68_violated_delayed_fork`, `Sv.C68_violated_parameter`, `Sv.C69_labels_partial`, `Sv.C70_violated_fork`, `Sv.C71_violated_always`, `Sv.C74_violated_description`, `Sv.C75_gate_meaning_partial`, `Sv.C75_violated_array`, `Sv.C77_instance_meaning_partial`, `Sv.C79_region_partial`, `Sv.C79_violated`, `Sv.C81_wire_partial`, `Sv.C80_redeclared_partial`, `Sv.C80_violated_empty`, `Sv.C80_violated_named`, `Vhdl.C83_violated_wait`, `Vhdl.C84_violated_signal_kind`, `Vhdl.C84_violated_alias`, `Vhdl.C84_violated_generics`, `Vhdl.C85_port_direction`, `Vhdl.C85_violated_bus`, `Vhdl.C87_violated_postponed`, `Vhdl.C87_violated_block`, `Vhdl.C89_violated_package_generics`, `Vhdl.C90_hierarchy_only`, `C91_context_success_iff`, `C91_violated_selected`, `C91_violated_do_while`, `C91_violated_extern`, `C92_violated_label`, `C98_mode_stack`, `C99_nested`, `Vhdl.C104_brackets_partial`, `Vhdl.C105_violated_parenthesis`, `Vhdl.C105_violated_attribute`, `Vhdl.C105_violated_separator`, `Vhdl.C105_violated_letter`, `Vhdl.C105_violated_line_end`, `Vhdl.C105_violated_extended`
* [propext, Classical.choice, Quot.sound]: `C01_terminates_str`, `C01_terminates_file`, `C02_source_partial`, `C03_line_counter`, `C04_position`, `C04_stable`, `C05_partial`, `C06_simultaneous_substitution`, `C06_no_params`, `C07_round_trip`, `C08_strings_immune`, `C09_substitution_partial`, `C09_violated_general`, `C10_argument_check`, `C10_too_many`, `C10_braces`, `C10_only_parse_errors`, `C12_undefined_str`, `C12_undefined_file`, `C12_success_all_defined`, `C13_ifdef`, `C13_ifndef_partial`, `C13_violated_general`, `C13_violated_witness`, `C14_skipped_irrelevant_partial`, `C15_violated_general`, `C15_new_definition_partial`, `C16_effect_partial`, `C17_api_macros_survive`, `C17_visible_in_run`, `C18_isolated`, `C19_first_existing_partial`, `C19_not_found`, `C20_balanced_str`, `C20_balanced_file`, `C20_balanced_construct`, `C20_visible_directories`, `C21_line`, `C22_unescape_dblquotes`, `C22_no_marker`, `C22_simple_string`, `C24_replace_substring`, `C24_replace_substring_exact`, `C24_no_marker`, `C24_empty_marker_diverges`, `C29_unsigned`, `C29_based_partial`, `C29_violated_ws`, `C30_partial`, `C30_violated_octal`, `C30_violated_decimal`, `C30_violated_signed`, `C32_violated`, `C33_string_roundtrip`, `C35_partial`, `C35_violated_space`, `C35_violated_lost`, `Vhdl.C38_meaning_partial`, `Sv.C42_nonansi`, `C44_copy_equal_partial`, `C44_copy_exists_iff`, `C45_dict_laws_partial`, `C45_update_partial`, `C45_violated_setdefault`, `C45_seen_by_run`, `C45_run_refines`, `C46_violated_general`, `C46_get_body_partial`, `C46_violated_new`, `C46_new_partial`, `C47_no_double_free_partial`, `C47_violated_two_keys`, `C47_violated_leak`, `C48_transparent`, `C49_plain_text_partial`, `C50_strings_terminated_partial`, `C51_violated_general`, `C52_encoding_partial`, `C53_violated_general`, `C53_no_abort_partial`, `C54_self_recursive_macro`, `C55_self_including_file`, `C56_no_ub`, `C57_first_call_partial`, `C58_string_input_partial`, `C58_violated_general`, `C59_files_independent`, `Vhdl.C61_expression_meaning_partial`, `Vhdl.C61_name_meaning_partial`, `Vhdl.C61_subtype_meaning_partial`, `Vhdl.C61_expression_injective_partial`, `Vhdl.C62_procedure_call`, `Sv.C63_violated_equivalence`, `C82_call_place`, `C82_define_place`, `C82_located_str_partial`, `C82_located_file_partial`, `Sv.C68_statement_meaning_partial`, `Sv.C68_statement_injective_partial`, `Sv.C68_violated_unsupported`, `Sv.C68_violated_new`, `Sv.C68_violated_repeat_event`, `Sv.C69_violated_escaped`, `Sv.C70_initial_partial`, `Sv.C71_always_events_partial`, `Sv.C71_always_plain_partial`, `Sv.C71_always_delay_partial`, `Sv.C74_module_meaning_partial`, `Sv.C74_source_meaning_partial`, `Sv.C74_module_injective_partial`, `Sv.C74_violated_escaped`, `Sv.C76_generate_meaning_partial`, `Sv.C76_generate_injective_partial`, `Sv.C78_function_meaning_partial`, `Sv.C80_ports_partial`, `Vhdl.C83_statement_meaning_partial`, `Vhdl.C83_statements_meaning_partial`, `Vhdl.C83_statement_injective_partial`, `Vhdl.C83_violated_assert`, `Vhdl.C83_violated_force`, `Vhdl.C83_violated_delay`, `Vhdl.C83_violated_case`, `Vhdl.C84_declaration_meaning_partial`, `Vhdl.C84_declarations_meaning_partial`, `Vhdl.C84_declarations_injective_partial`, `Vhdl.C85_interface_meaning_partial`, `Vhdl.C85_interface_injective_partial`, `Vhdl.C85_violated_signal_parameter`, `Vhdl.C86_type_meaning_partial`, `Vhdl.C86_type_injective_partial`, `Vhdl.C87_statement_meaning_partial`, `Vhdl.C87_statement_injective_partial`, `Vhdl.C87_violated_alternative_label`, `Vhdl.C88_instance`, `Vhdl.C88_violated_kind`, `Vhdl.C89_file_meaning_partial`, `Vhdl.C89_file_injective_partial`, `C91_success_iff`, `C91_vhdl_file_iff`, `C91_vhdl_hierarchy`, `C91_sv_source_partial`, `C91_sv_statement_partial`, `C91_violated_empty_concat`, `C92_read`, `C92_same_iff`, `C92_context_read`, `C92_vhdl_injective_partial`, `C92_violated_open`, `C92_violated_null`, `PyRef.C93_same_outcome`, `PyRef.C93_expression`, `PyRef.C93_definition`, `PyRef.C93_object_partial`, `PyRef.C93_violated_context`, `PyRef.C93_violated_statement`, `PyRef.C93_violated_unit`, `PyRef.C93_violated_enum`, `PyRef.C94_clean_partial`, `PyRef.C94_expression`, `PyRef.C94_earlier_partial`, `PyRef.C94_violated_context`, `PyRef.C94_violated_process`, `PyRef.C94_violated_assign`, `PyRef.C94_violated_empty_concat`, `C95_structure_partial`, `C96_macro_line_partial`, `C97_same_directives_partial`, `C98_depth`, `C99_unopened`, `C100_stray_partial`, `C101_semantics_str_partial`, `C101_semantics_file_partial`, `Vhdl.C102_text_meaning_partial`, `Vhdl.C102_one_reading`, `Vhdl.C103_parentheses_partial`, `Vhdl.C105_elements_partial`, `Vhdl.C105_one_division`, `Vhdl.C106_layout_partial`, `Vhdl.C107_tokens_partial`, `Vhdl.C107_violated_character`, `Vhdl.C108_source_meaning_partial`, `Sv.C109_text_meaning_partial`, `Sv.C109_one_reading`, `Sv.C110_parentheses_partial`, `Sv.C111_brackets_partial`, `Sv.C112_elements_partial`, `Sv.C112_one_division`, `Sv.C112_violated_edge`, `Sv.C112_violated_operator`, `Sv.C112_violated_form_feed`, `Sv.C112_violated_escape`, `Sv.C112_violated_base`, `Sv.C113_layout_partial`, `Sv.C114_keywords_partial`, `Sv.C115_tokens_partial`, `Sv.C115_violated_backslash`, `Sv.C116_source_meaning_partial`, `Position.C117_vhdl_positions_partial`, `Position.C117_sv_positions_partial`, `Position.C117_one_place`, `Position.C117_violated_multiline`, `Vhdl.C118_statements_meaning_partial`, `Vhdl.C118_one_reading`, `Vhdl.C119_source_statements_partial`, `Vhdl.C120_file_parse_partial`, `Vhdl.C120_one_reading_partial`, `Vhdl.C120_violated_labelled_call`, `Vhdl.C121_file_meaning_partial`, `Vhdl.C122_source_file_partial`, `Vhdl.C123_parse_partial`, `Vhdl.C123_parse_str_partial`, `Sv.C124_statement_text_partial`, `Sv.C124_one_reading`, `Sv.C124_dangling_else_partial`, `Sv.C125_source_statement_partial`, `Sv.C126_item_text_partial`, `Sv.C126_one_reading`, `Sv.C127_source_item_partial`, `Sv.C128_source_text_partial`, `Sv.C128_one_reading`, `Sv.C129_file_partial`
