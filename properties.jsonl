{"id": "C01", "title": "Preprocessing terminates on every input", "statement": "verilog_pp / verilog_pp_str / parse always return or raise for every source text, every set of macro definitions and every file system, including files that include themselves (directly or in a cycle) and macros that expand to themselves: nesting never exceeds the include-depth limit plus the macro-call-stack limit.", "quantifier": "all source texts, macro databases, include directories and file-system contents (including cyclic ones), all parser behaviours", "why_tests_cant": "Termination over an unbounded space of cyclic include graphs and mutually recursive macros cannot be sampled; a test only shows that one particular cycle is cut.", "anchors": ["src/verilogPreproc/verilogPreproc.cpp: visitInclude, visitMacro_call", "src/verilogPreproc/verilogPreprocContainer.cpp: run_preproc_file, run_preproc_str", "include/hdlConvertor/verilogPreproc/verilogPreprocContainer.h: DEFAULT_MAX_MACRO_CALL_STACK_SIZE"]}
{"id": "C02", "title": "A directive-free source is reproduced verbatim", "statement": "Preprocessing a source which contains no compiler directive and no macro call returns exactly the input text: no character is lost, added, or reordered, and no newline is inserted.", "quantifier": "all token sequences without directives, of any length, with any number of lines", "why_tests_cant": "The newline re-synchronisation logic runs for every token; the identity has to hold for every token/line layout.", "anchors": ["src/verilogPreproc/verilogPreproc.cpp: visitText", "src/verilogPreproc/out_buffer.cpp: set_input_line, operator<<"]}
{"id": "C03", "title": "The line counter of the output equals the emitted newlines", "statement": "After any sequence of operations on the preprocessor's output, the number of lines it believes it has written equals the number of newline characters in the text it has written, and the entries of its line map are sorted by output line and never point beyond the written text.", "quantifier": "all histories of output-buffer operations (text, line directives, nested buffers) of any length", "why_tests_cant": "Invariant over unbounded histories of operations.", "anchors": ["src/verilogPreproc/out_buffer.cpp: operator<<, set_input_line"]}
{"id": "C04", "title": "Line map resolves output positions to input positions", "statement": "For a source without `include, looking up the current output line in the line map gives the file and the input line of the construct that is being emitted, at every point of the run.", "quantifier": "all histories of line updates and emitted texts (wrap-around 64-bit arithmetic included)", "why_tests_cant": "Depends on arbitrary interleavings of multi-line macro expansions, skipped branches and `line directives.", "anchors": ["src/verilogPreproc/out_buffer.cpp: set_input_line", "src/verilogPreproc/verilogPreproc.cpp: visitText, visitLine_directive, processIfdef"]}
{"id": "C05", "title": "Text after an `include is attributed to the including file", "statement": "After an `include directive, text (and `__FILE__) of the including file is attributed to the including file and its own line numbers, not to the included file.", "quantifier": "all including/included files and positions of the directive", "why_tests_cant": "Needs every relative alignment of line counts of the two files.", "anchors": ["src/verilogPreproc/verilogPreproc.cpp: visitInclude", "src/verilogPreproc/out_buffer.cpp: operator<<(const VerilogPreprocOutBuffer&), set_input_line", "src/verilogPreproc/default_macro_defs.cpp: MacroDef__FILE__::replace"]}
{"id": "C06", "title": "Macro expansion is simultaneous substitution of the formal parameters", "statement": "Expanding a macro replaces exactly the free-standing occurrences of its formal parameters in the body (outside of string literals) with the corresponding actual arguments, all at once: text that comes from an argument is never searched for parameter names again, and every other character of the body is copied.", "quantifier": "all bodies, all lists of distinct identifier parameters, all argument texts", "why_tests_cant": "Interaction of overlapping names (a, aa, a_b), adjacency and argument texts that contain parameter names is unbounded.", "anchors": ["src/verilogPreproc/macro_def_verilog.cpp: parse_body, replace"]}
{"id": "C07", "title": "Expanding a macro with its own parameter names reproduces the body", "statement": "For every macro, calling it with arguments equal to its formal parameter names yields exactly its body; in particular parsing the macro body loses no characters.", "quantifier": "all bodies and all lists of distinct identifier parameters", "why_tests_cant": "Round trip over all strings.", "anchors": ["src/verilogPreproc/macro_def_verilog.cpp: parse_body, replace"]}
{"id": "C08", "title": "String literals in a macro body are never altered by arguments", "statement": "Text inside a plain string literal in a macro body does not depend on the actual arguments.", "quantifier": "all bodies, parameters and argument lists", "why_tests_cant": "All placements of quotes, escapes and parameter names.", "anchors": ["src/verilogPreproc/macro_def_verilog.cpp: collect_string_intervals, check_is_in_string, parse_body"]}
{"id": "C09", "title": "A formal parameter is substituted wherever it is a separate identifier", "statement": "Every occurrence of a formal parameter as a whole identifier in the macro text (outside strings) is substituted, whatever character follows the identifier.", "quantifier": "all bodies and parameters", "why_tests_cant": "All contexts in which an identifier can occur.", "anchors": ["src/verilogPreproc/macro_def_verilog.cpp: parse_body"]}
{"id": "C10", "title": "Macro argument checking and default values", "statement": "A macro call succeeds exactly when the number of actual arguments is acceptable; then each formal parameter gets the actual argument if that is non-empty, otherwise its default, otherwise the empty text. Too many arguments, or a missing argument without default, raises a ParseException. The expansion itself never fails with an index error.", "quantifier": "all parameter lists with any mix of defaults, all argument lists", "why_tests_cant": "The argument-completion loop mutates the list while iterating; correctness is for all lengths and default patterns.", "anchors": ["src/verilogPreproc/macro_def_verilog.cpp: replace, get_possible_arg_cnt"]}
{"id": "C11", "title": "Macro call arguments are split exactly at the commas", "statement": "The list of actual arguments of a call M(v1, ..., vn) is the list of the trimmed argument texts in order, with an empty text for every omitted one; M() has no arguments and M(,) has two empty ones.", "quantifier": "all argument lists of any length with any pattern of omitted arguments", "why_tests_cant": "All patterns of omitted arguments.", "anchors": ["src/verilogPreproc/verilogPreproc.cpp: parse_macro_args"]}
{"id": "C12", "title": "Use of an undefined macro is always an error", "statement": "If preprocessing succeeds, every macro call that was reached referred to a macro that was defined at that point; a call of an undefined macro raises a ParseException and never silently disappears.", "quantifier": "all sources and macro databases", "why_tests_cant": "All histories of define/undef before the call.", "anchors": ["src/verilogPreproc/verilogPreproc.cpp: visitMacro_call"]}
{"id": "C13", "title": "Conditional compilation selects the right branch", "statement": "`ifdef/`elsif/`else and `ifndef/`elsif/`else process exactly the first branch whose condition holds (`ifdef X and `elsif X: X is defined; `ifndef X: X is not defined), the `else branch if none holds, and nothing else.", "quantifier": "all conditional chains of any length and all macro databases", "why_tests_cant": "All chains and all definedness patterns.", "anchors": ["src/verilogPreproc/verilogPreproc.cpp: processIfdef, visitIfdef_directive, visitIfndef_directive"]}
{"id": "C14", "title": "Skipped branches have no effect at all", "statement": "The content of branches that are not selected influences neither the output, nor macro definitions, nor line information, nor errors: replacing it by anything else gives the same result.", "quantifier": "all conditional chains, all contents of the skipped branches, all states", "why_tests_cant": "Quantifies over two arbitrary sources.", "anchors": ["src/verilogPreproc/verilogPreproc.cpp: processIfdef"]}
{"id": "C15", "title": "A later `define replaces the earlier definition", "statement": "After `define X a and then `define X b, a call of X expands to b.", "quantifier": "all macro databases and definitions", "why_tests_cant": "Depends on the history of the macro database.", "anchors": ["src/verilogPreproc/verilogPreproc.cpp: visitDefine"]}
{"id": "C16", "title": "`undef removes exactly the named macro", "statement": "`undef X makes X undefined and leaves all other macros unchanged; undefining a name that is not defined has no effect; a macro set through the API (persistent) stays. The operation must not touch freed memory.", "quantifier": "all macro databases and names", "why_tests_cant": "All database contents; memory safety.", "anchors": ["src/verilogPreproc/verilogPreproc.cpp: visitUndef"]}
{"id": "C17", "title": "Macros set through the API survive everything", "statement": "A macro stored with preproc_macro_db[...] = ... keeps its definition through every preprocessing run (whatever `define, `undef, `undefineall the sources contain, successful or failed) until it is changed through the API.", "quantifier": "all sources, all run histories, successful or failed", "why_tests_cant": "Invariant over all executions.", "anchors": ["src/verilogPreproc/verilogPreprocContainer.cpp: delete_non_persystent_macro_defs, init", "src/verilogPreproc/verilogPreproc.cpp: visitUndef, visitDefine", "hdlConvertor/verilogPreproc.pyx: CppStdMapProxy.__setitem__"]}
{"id": "C18", "title": "Preprocessing runs are isolated from each other", "statement": "The result of verilog_pp / verilog_pp_str depends only on the source, the include directories, the language and the macros set through the API, not on macros defined by sources processed earlier on the same HdlConvertor, even if these runs failed.", "quantifier": "all histories of earlier runs and all later inputs", "why_tests_cant": "Two-run (non-interference) property.", "anchors": ["src/hdlConvertor.cpp: verilog_pp, verilog_pp_str, parse", "src/verilogPreproc/verilogPreprocContainer.cpp: init"]}
{"id": "C19", "title": "Include search order", "statement": "`include takes the first existing candidate: the user's include directories in the given order, then the directory of the including file; if none exists a ParseException is raised.", "quantifier": "all include-directory lists, file systems and nesting levels", "why_tests_cant": "All search lists and nested include histories.", "anchors": ["src/verilogPreproc/verilogPreproc.cpp: visitInclude", "src/verilogPreproc/verilogPreprocContainer.cpp: add_parent_dir_to_incldirs, run_preproc_file"]}
{"id": "C20", "title": "Include and macro stacks are balanced", "statement": "After a successful (sub)run the include-directory list, the stack of included files and the macro call stack are exactly as before it; the directory of an included file is not visible to files that do not lie below it in the include chain.", "quantifier": "all sources and nesting structures", "why_tests_cant": "Invariant over recursive executions.", "anchors": ["src/verilogPreproc/verilogPreprocContainer.cpp: run_preproc_file, run_preproc_str", "src/verilogPreproc/verilogPreproc.cpp: visitInclude, visitMacro_call"]}
{"id": "C21", "title": "`__LINE__ reports the line of the call", "statement": "`__LINE__ expands to the number of the source line it is written on; used inside of (nested) macros it expands to the line of the outermost call plus the line offset inside the body.", "quantifier": "all lines, all nesting depths of macro calls", "why_tests_cant": "All nesting depths.", "anchors": ["src/verilogPreproc/default_macro_defs.cpp: MacroDef__LINE__::replace", "src/verilogPreproc/verilogPreproc.cpp: visitMacro_call"]}
{"id": "C22", "title": "`\" string construction escapes correctly", "statement": "In an expanded macro every `\" becomes a plain quote, a newline inside such a string is escaped exactly once, text outside is unchanged, an unterminated `\" raises a ParseException, and no out-of-range access happens.", "quantifier": "all texts", "why_tests_cant": "In-place editing with moving indices: correctness for every string.", "anchors": ["src/verilogPreproc/str_utils.cpp: unescape_string_dblquotes"]}
{"id": "C23", "title": "Trimming removes exactly the surrounding whitespace", "statement": "The text of macro arguments and bodies is stripped of leading/trailing blanks, tabs and newlines and otherwise unchanged; trimming twice is the same as trimming once.", "quantifier": "all texts", "why_tests_cant": "All strings, including all-blank and empty ones (npos wrap-around).", "anchors": ["src/verilogPreproc/str_utils.cpp: rtrim, ltrim, trim"]}
{"id": "C24", "title": "Token pasting removes every `` and keeps the rest", "statement": "Replacing a marker (`` or `\\`) in an expansion replaces every left-to-right non-overlapping occurrence, does not rescan inserted text, keeps everything else, and terminates.", "quantifier": "all texts and all non-empty markers", "why_tests_cant": "All strings.", "anchors": ["src/verilogPreproc/str_utils.cpp: replace_substring, replaceStringInPlace"]}
{"id": "C25", "title": "ISO-8859-1 input is converted to UTF-8 without loss", "statement": "For encoding 'iso-8859-1' the parser sees exactly the characters whose codes are the input bytes; distinct inputs give distinct texts; the produced bytes are well-formed UTF-8.", "quantifier": "all byte strings of any length", "why_tests_cant": "All byte strings.", "anchors": ["src/encodingConversions.cpp: iso_8859_1_to_utf8"]}
{"id": "C26", "title": "Encoding names are dispatched or rejected", "statement": "'utf-8' passes the bytes through unchanged, 'iso-8859-1' converts them, 'utf-16' decodes the bytes as UTF-16 code units, and any other name raises an error.", "quantifier": "all encodings and byte strings", "why_tests_cant": "All byte strings; memory safety of the reinterpretation.", "anchors": ["src/encodingConversions.cpp: _to_utf8"]}
{"id": "C27", "title": "No AST is returned when a syntax error was reported", "statement": "parse/parse_str raise a ParseException exactly when the lexer or parser reported at least one error, the message lists every reported error in order, and the AST conversion is not started in this case.", "quantifier": "all sequences of reported errors", "why_tests_cant": "All error sequences.", "anchors": ["src/syntaxErrorLogger.cpp: check_errors, syntaxError", "include/hdlConvertor/parserContainer.h: _parse", "src/hdlConvertor.cpp: parseFn"]}
{"id": "C28", "title": "Syntax errors point to the original source", "statement": "A syntax error found in preprocessed Verilog code is reported with the file and line of the original source.", "quantifier": "all line maps and error positions", "why_tests_cant": "All alignments of original and preprocessed lines.", "anchors": ["src/syntaxErrorLogger.cpp: syntaxError", "src/hdlConvertor.cpp: SVParserContainer::parse_file"]}
{"id": "C29", "title": "Verilog integer literals keep value, base and width", "statement": "A Verilog number literal is returned with the digits (underscores removed, lower case), base and width written in the source, so its value is the value the language assigns to it.", "quantifier": "all literals of all lengths (sized, unsized, signed, four bases, x/z digits, white space)", "why_tests_cant": "All digit strings of any length.", "anchors": ["src/svConvertor/literalParser.cpp: visitIntegral_number, visitANY_BASED_NUMBER, visitUNSIGNED_NUMBER, parseSize_UNSIGNED_NUMBER"]}
{"id": "C30", "title": "VHDL bit string literals keep value, base and width", "statement": "A VHDL bit string literal is returned with its digits, base and width (explicit size, or number of digits times bits per digit).", "quantifier": "all bit string literals (b/o/x/d, u/s prefixes, explicit size, underscores)", "why_tests_cant": "All literals of any length.", "anchors": ["src/vhdlConvertor/literalParser.cpp: visitBIT_STRING_LITERAL"]}
{"id": "C31", "title": "VHDL decimal literals keep their value", "statement": "A VHDL integer literal is returned with the value the language assigns to it, whatever its digits, underscores and magnitude.", "quantifier": "all decimal literals", "why_tests_cant": "All digit strings of any length.", "anchors": ["src/vhdlConvertor/literalParser.cpp: visitDECIMAL_LITERAL"]}
{"id": "C32", "title": "VHDL based literals keep digits and base", "statement": "A VHDL based literal base#digits# is returned with exactly its digits and base.", "quantifier": "all based literals", "why_tests_cant": "All digit strings of any length.", "anchors": ["src/vhdlConvertor/literalParser.cpp: visitBASED_LITERAL"]}
{"id": "C33", "title": "VHDL string literals round-trip", "statement": "Writing any text as a VHDL string literal (doubling its quotes) and converting it gives back the text.", "quantifier": "all texts", "why_tests_cant": "Round trip over all strings with any number/arrangement of quotes.", "anchors": ["src/vhdlConvertor/literalParser.cpp: visitSTRING_LITERAL"]}
{"id": "C34", "title": "Escaped Verilog identifiers name the same object as the plain identifier", "statement": "An escaped identifier \\name is converted to name, regardless of which white space terminates it.", "quantifier": "all escaped identifiers and terminators", "why_tests_cant": "All names and terminators.", "anchors": ["src/svConvertor/literalParser.cpp: visitESCAPED_IDENTIFIER", "grammars/sv2017Lexer.g4: ESCAPED_IDENTIFIER"]}
{"id": "C35", "title": "Doc comments keep the comment text", "statement": "The doc string of an object is the concatenation of the texts of the comments in front of it, with only the comment marker (and one following space) removed.", "quantifier": "all comment token sequences", "why_tests_cant": "All comment texts.", "anchors": ["include/hdlConvertor/vhdlConvertor/commentParser.h: parse", "include/hdlConvertor/svConvertor/commentParser.h: parse"]}
{"id": "C36", "title": "Operator names are unambiguous", "statement": "Every operator kind of the AST has a name in the Python API, and two different operators never share a name.", "quantifier": "all operator kinds and pairs of them", "why_tests_cant": "Must cover the whole enumeration against the string table (off-by-one in the table shifts every later name).", "anchors": ["src/hdlAst/hdlOpType.cpp: HdlOpType_toString", "hdlConvertor/toPy_expr.cpp: toPy(HdlOpType)"]}
{"id": "C37", "title": "VHDL unary operators are translated to unary operators", "statement": "Each unary (reduction/sign) operator of VHDL is represented by the unary variant of the operator.", "quantifier": "all operators accepted in prefix position", "why_tests_cant": "Whole operator table.", "anchors": ["src/hdlAst/hdlOpType.cpp: HdlOpType_toUnary", "src/vhdlConvertor/exprParser.cpp: visitSimple_expression"]}
{"id": "C38", "title": "Chained VHDL conditional waveforms evaluate with the right priority", "statement": "The nested ternary built for `w1 when c1 else w2 when c2 ... else wn` evaluates, under every valuation of the conditions, to the waveform of the first true condition, or to the final else waveform.", "quantifier": "all chain lengths, all conditions and valuations, with and without a final else", "why_tests_cant": "All chain lengths and valuations.", "anchors": ["src/vhdlConvertor/exprParser.cpp: visitConditional_waveforms", "src/hdlAst/hdlOp.cpp: HdlOp::ternary"]}
{"id": "C39", "title": "Concatenations keep the order of their parts", "statement": "A Verilog concatenation {e1, ..., en} evaluates to the bits of e1 ... en in order for all n, and a replication {n{...}} keeps count and content.", "quantifier": "all lists of operands and all valuations", "why_tests_cant": "All lengths.", "anchors": ["src/svConvertor/exprParser.cpp: visitConcatenation", "src/svConvertor/utils.cpp: reduce"]}
{"id": "C40", "title": "Member access on the left-hand side is preserved", "statement": "Converting an assignment target keeps all its parts: a.b[1].c[3:0] stays a reference to that member.", "quantifier": "all assignment targets", "why_tests_cant": "All paths of any length.", "anchors": ["src/svConvertor/exprParser.cpp: visitPackage_or_class_scoped_hier_id_with_select"]}
{"id": "C41", "title": "Call arguments keep their positions", "statement": "In a Verilog call the i-th argument of the AST is the i-th argument of the source, omitted arguments are represented by a placeholder, and a call without arguments is still a call.", "quantifier": "all argument lists", "why_tests_cant": "All patterns of omitted/named/positional arguments.", "anchors": ["src/svConvertor/exprParser.cpp: visitList_of_arguments", "src/svConvertor/exprPrimaryParser.cpp: visitPrimaryCall"]}
{"id": "C42", "title": "Port directions are inherited from the preceding port", "statement": "A port without direction gets the direction of the nearest preceding port that has one, and inout if there is none; ports with a direction keep it.", "quantifier": "all port lists", "why_tests_cant": "All lengths and patterns.", "anchors": ["src/svConvertor/moduleParser.cpp: visitModule_declaration", "src/svConvertor/portParser.cpp: visitAnsi_port_declaration"]}
{"id": "C43", "title": "Dimensions of one declared name do not leak to the next", "statement": "In a declaration list `type a dims_a, b dims_b, ...` each name gets the base type with exactly its own dimensions.", "quantifier": "all declaration lists, base types and dimensions", "why_tests_cant": "All combinations of base types (mutated in place) and dimension lists.", "anchors": ["src/svConvertor/portParser.cpp: visitList_of_variable_identifiers", "src/svConvertor/typeParser.cpp: applyVariable_dimension"]}
{"id": "C44", "title": "Copies of expressions are faithful", "statement": "Wherever the converter duplicates a type or expression (several names in one declaration, several instances in one instantiation), the copy is equal to the original.", "quantifier": "all expression trees", "why_tests_cant": "Structural recursion over unbounded trees.", "anchors": ["src/hdlAst/hdlOp.cpp: clone", "src/hdlAst/hdlValue.cpp", "src/hdlAst/hdlTypes.cpp"]}
{"id": "C45", "title": "preproc_macro_db behaves like a dict", "statement": "The macro database exposed to Python obeys the dict laws for get/[]/in/len/setdefault/update/clear/del/pop and the mapping seen is exactly what the preprocessor uses.", "quantifier": "all histories of dict operations", "why_tests_cant": "All histories.", "anchors": ["hdlConvertor/verilogPreproc.pyx: CppStdMapProxy"]}
{"id": "C46", "title": "get_body/get_params return what was defined", "statement": "For a macro in the database get_body() returns the macro text and get_params() the parameters with their defaults; MacroDefVerilog.new(name, params, body) creates a macro with these.", "quantifier": "all macro definitions", "why_tests_cant": "All bodies/parameter lists.", "anchors": ["hdlConvertor/verilogPreproc.pyx: MacroDefVerilogProxy.get_body, get_params, new"]}
{"id": "C47", "title": "Macro objects are freed exactly once", "statement": "No macro object is freed twice or used after being freed, for any sequence of dict operations and runs followed by destruction of the convertor.", "quantifier": "all histories of API operations", "why_tests_cant": "Memory safety over all histories.", "anchors": ["hdlConvertor/verilogPreproc.pyx: __setitem__, __delitem__", "src/hdlConvertor.cpp: ~HdlConvertor", "src/verilogPreproc/verilogPreproc.cpp: visitUndef"]}
{"id": "C48", "title": "Predefined directives without text effect are transparent", "statement": "`resetall, `celldefine, `timescale, `default_nettype, `pragma, `begin_keywords etc. neither emit text nor change macros or stacks.", "quantifier": "all sources and states", "why_tests_cant": "All positions in all sources.", "anchors": ["src/verilogPreproc/verilogPreproc.cpp: visitResetall ... visitPragma"]}
{"id": "C49", "title": "The text of a macro expansion does not depend on where the macro is called", "statement": "Expanding the same macro with the same arguments at two different source lines yields the same text (macros that do not use `__LINE__).", "quantifier": "all macros, all pairs of call positions", "why_tests_cant": "The number of emitted newlines depends on the line of the call through nested output buffers; only an argument over all lines covers it.", "anchors": ["src/verilogPreproc/verilogPreproc.cpp: visitMacro_call", "src/verilogPreproc/out_buffer.cpp: set_input_line"]}
{"id": "C50", "title": "A macro text is accepted exactly if its string literals are terminated", "statement": "`define accepts a macro text whose string literals are all closed (a backslash escapes exactly the next character) and refuses one with an unterminated string.", "quantifier": "all macro texts", "why_tests_cant": "Ranges over all texts with quotes and escapes.", "anchors": ["src/verilogPreproc/macro_def_verilog.cpp: collect_string_intervals"]}
{"id": "C51", "title": "`line sets the position of the following text", "statement": "After `line N \"f\" L the next source line is reported as line N of file f: `__LINE__ on it expands to N and `__FILE__ to \"f\".", "quantifier": "every source text, every number and file name", "why_tests_cant": "the effect depends on the interplay of the directive with all later text tokens and nested buffers; a test checks one layout", "anchors": ["src/verilogPreproc/verilogPreproc.cpp visitLine", "src/verilogPreproc/out_buffer.cpp set_input_line", "src/verilogPreproc/default_macros.cpp"]}
{"id": "C52", "title": "The chosen encoding is used for every file of a run", "statement": "Every file read during one run (the top file and all included files, wherever the include is written) is decoded with the encoding given by the user.", "quantifier": "every include/macro nesting, every encoding, every file content", "why_tests_cant": "depends on how the file was reached; tests use ASCII or include files directly", "anchors": ["src/verilogPreproc/verilogPreproc.cpp visitInclude", "src/verilogPreproc/verilogPreproc.cpp visitMacro_call", "src/verilogPreproc/verilogPreprocContainer.cpp run_preproc_file"]}
{"id": "C53", "title": "Invalid macro texts raise a Python exception", "statement": "Assigning a macro text that can not be parsed (unterminated string) to preproc_macro_db raises a Python exception and leaves the database unchanged; it does not abort the interpreter.", "quantifier": "every key and text", "why_tests_cant": "the set of rejected texts is infinite and the failing path ends the test process", "anchors": ["hdlConvertor/verilogPreproc.pyx", "src/verilogPreproc/macro_def_verilog.cpp parse_body"]}
{"id": "C54", "title": "Endless macro recursion is reported as ParseException", "statement": "Calling a macro without parameters whose text, possibly after plain text, calls the same macro again raises a ParseException that says that the macro call stack overflowed; it never crashes or returns text.", "quantifier": "every macro text, every state in which it is called", "why_tests_cant": "needs a statement about all recursive texts and all nesting depths at the call", "anchors": ["src/verilogPreproc/verilogPreproc.cpp visitMacro_call"]}
{"id": "C55", "title": "A file that includes itself is reported as ParseException", "statement": "If an include directive (possibly after plain text) resolves to the file it is written in, the run raises a ParseException with the nested include limit message, listing the chain of files.", "quantifier": "every file system and include path list", "why_tests_cant": "the search path changes at each level; a test checks one directory layout", "anchors": ["src/verilogPreproc/verilogPreproc.cpp visitInclude", "src/verilogPreproc/verilogPreprocContainer.cpp run_preproc_file"]}
{"id": "C56", "title": "Preprocessing has no out-of-range accesses", "statement": "For byte encodings ('utf-8', 'iso-8859-1', unknown names) a preprocessing run never reads the last element of an empty line map, never removes from an empty include list and never reads a macro argument that does not exist, whether it succeeds or fails.", "quantifier": "every source, file system, macro database", "why_tests_cant": "undefined behaviour is not observable by a passing test", "anchors": ["src/verilogPreproc/out_buffer.cpp", "src/verilogPreproc/verilogPreprocContainer.cpp", "src/verilogPreproc/macro_def_verilog.cpp"]}
{"id": "C57", "title": "A parse returns the objects of its own inputs", "statement": "parse(files) and parse_str(text) on one convertor object return a context with the objects of the given inputs only; earlier calls, successful or not, leave no objects behind.", "quantifier": "every sequence of earlier calls on the same convertor object", "why_tests_cant": "needs all call histories including failing ones", "anchors": ["src/hdlConvertor.cpp HdlConvertor::parse", "hdlConvertor/_hdlConvertor.pyx parse"]}
{"id": "C58", "title": "String inputs reach the parser as given", "statement": "The text given to parse_str is the text that is parsed, for every encoding argument that is accepted: the parser sees the UTF-8 form of exactly these characters.", "quantifier": "every string, every accepted encoding name", "why_tests_cant": "needs all strings, in particular non-ASCII ones", "anchors": ["hdlConvertor/_hdlConvertor.pyx parse_str", "hdlConvertor/python_ver_independent_str.pyx str_encode", "src/encoding"]}
{"id": "C59", "title": "Files of one call are independent", "statement": "For parse([f1, ..., fn]) every file is preprocessed as if it was the only one (macros defined in one file are not visible in the next), and the objects are in the order of the files.", "quantifier": "every list of files, every file system", "why_tests_cant": "needs all file lists and contents", "anchors": ["src/hdlConvertor.cpp HdlConvertor::parse", "src/verilogPreproc/verilogPreprocContainer.cpp init"]}
{"id": "C60", "title": "VHDL character literals keep their character", "statement": "A VHDL character literal 'c' is returned with the character c, also when c is encoded in several bytes.", "quantifier": "all characters", "why_tests_cant": "All characters; the code cuts the text by bytes.", "anchors": ["src/vhdlConvertor/literalParser.cpp: visitCHARACTER_LITERAL", "src/vhdlConvertor/literalParser.cpp: visitEnumeration_literal"]}
{"id": "C61", "title": "VHDL expressions keep their meaning", "statement": "The expression returned for a VHDL expression (also name, call, slice, attribute, aggregate, subtype) denotes the same value as the source under every meaning of the operators: same operators, same operands, same grouping and order; in particular two expressions with different meanings never get the same AST.", "quantifier": "all VHDL expressions, names and subtype indications, all interpretations of the operators", "why_tests_cant": "Unbounded nesting of about 20 mutually recursive rules; every combination of operators, aggregates and parentheses.", "anchors": ["src/vhdlConvertor/exprParser.cpp: visitExpression, visitSimple_expression, visitPrimary, visitAggregate", "src/vhdlConvertor/referenceParser.cpp: visitName", "src/vhdlConvertor/typeDeclarationParser.cpp: visitSubtype_indication"]}
{"id": "C62", "title": "VHDL procedure call statements are calls", "statement": "A procedure call statement yields a CALL whose first operand is the procedure and whose other operands are the actual arguments in order; a call without arguments is still a CALL.", "quantifier": "all procedure names and argument lists", "why_tests_cant": "All shapes of names (selected, indexed, sliced, attributed) and argument lists.", "anchors": ["src/vhdlConvertor/exprParser.cpp: visitProcedure_call"]}
{"id": "C63", "title": "SystemVerilog expressions keep their meaning", "statement": "For every SystemVerilog expression, data type and assignment target the AST denotes what the source denotes: for every interpretation of the operators, literals and names the value of the AST is the value of the source, hence two sources with different meanings never have the same AST.", "quantifier": "all expression, data type and target trees; all interpretations of operators, literals and names", "why_tests_cant": "Every nesting of operators, selections, calls, casts, patterns, concatenations and types has to be covered for all operators at once.", "anchors": ["src/svConvertor/exprParser.cpp", "src/svConvertor/exprPrimaryParser.cpp", "src/svConvertor/typeParser.cpp", "src/svConvertor/literalParser.cpp"]}
{"id": "C67", "title": "Unsupported SystemVerilog constructs are reported, never crash", "statement": "Converting any syntactically accepted SystemVerilog construct either yields AST objects or raises ParseException; no construct makes the process abort or dereference a null pointer.", "quantifier": "all parse trees accepted by the grammar", "why_tests_cant": "The crashing constructs are legal but rare; a test suite only contains constructs somebody thought of.", "anchors": ["src/svConvertor/exprParser.cpp: visitExpression, visitVariable_lvalue", "src/svConvertor/declrParser.cpp: visitType_declaration"]}
{"id": "C82", "title": "Preprocessing errors name the place of the construct that failed", "statement": "When preprocessing raises ParseException, the message starts with the source name, line and column of the definition, macro call or include that failed (or lists the syntax errors), and that construct is at this place of that source.", "quantifier": "all texts, files, macro databases, include directories, languages; all nestings of macro calls and includes", "why_tests_cant": "The exceptions come from many places below nested runs; whether every one is wrapped with a position, and with the right one, needs all paths.", "anchors": ["src/verilogPreproc/verilogPreproc.cpp: throw_input_caused_error, visitMacro_call, visitDefine, visitInclude", "src/verilogPreproc/verilogPreprocContainer.cpp: run_preproc_str"]}
{"id": "C64", "title": "Packed and unpacked dimensions are told apart", "statement": "The result of a SystemVerilog declaration tells which dimensions are packed (part of the type) and which are unpacked (after the name): `logic [3:0] a` and `logic a [3:0]` give different objects.", "quantifier": "all vector types, dimensions and names", "why_tests_cant": "The question is whether two different inputs can give the same output; a test compares one output with one expectation.", "anchors": ["src/svConvertor/typeParser.cpp: applyVariable_dimension", "src/svConvertor/declrParser.cpp: visitList_of_variable_decl_assignments"]}
{"id": "C65", "title": "Nets keep their net type", "statement": "A net declaration (wire, tri, wand, wor, supply0, ..., or a user-defined net type) yields an object from which the net type can be read; declarations with different net types give different results.", "quantifier": "all net types, data types, dimensions and name lists", "why_tests_cant": "Injectivity over all declarations.", "anchors": ["src/svConvertor/moduleParser.cpp: visitNet_declaration", "src/svConvertor/typeParser.cpp: visitImplicit_data_type"]}
{"id": "C66", "title": "Arguments of tasks and functions have their direction", "statement": "Every argument of a task or function has the direction written for it: the keyword in front of it, or that of the argument before it, input at the beginning.", "quantifier": "all argument lists", "why_tests_cant": "All lists; tests with inputs only cannot see it.", "anchors": ["src/svConvertor/portParser.cpp: visitTf_port_item", "src/svConvertor/programParser.cpp: visitTf_port_declaration"]}
{"id": "C72", "title": "A list in one construct means the constructs one by one", "statement": "`m #(..) a(..), b(..);` gives the objects of `m #(..) a(..); m #(..) b(..);`, and likewise for gates, continuous assignments, genvars and imports.", "quantifier": "all lists", "why_tests_cant": "Lists of any length; copies of shared parts go through clone.", "anchors": ["src/svConvertor/moduleInstanceParser.cpp: visitModule_or_interface_or_program_or_udp_instantiation", "src/svConvertor/gateParser.cpp", "src/svConvertor/declrParser.cpp: visitPackage_import_declaration"]}
{"id": "C73", "title": "Every declared name is returned once and in order", "statement": "Every parameter, variable and net that is declared is among the results exactly once, in the order of the source, with its dimensions.", "quantifier": "all declaration lists", "why_tests_cant": "Lists of any length and all alternatives of the grammar.", "anchors": ["src/svConvertor/paramDefParser.cpp: visitParameter_port_list", "src/svConvertor/declrParser.cpp", "src/svConvertor/moduleParser.cpp: visitNet_declaration"]}
{"id": "C68", "title": "The AST of a SystemVerilog statement has the meaning of the statement", "statement": "Whatever the operators and statements mean, the AST object of a statement has the meaning of the statement: assignments with their delays and events, if and case with all branches in order, loops, blocks with their declarations, forks with their kind of join, delays and event controls. Two statements of different meaning never have the same AST.", "quantifier": "all statements, all interpretations of operators and statements", "why_tests_cant": "Statements nest without bound; a test compares the output for samples only and cannot show that no two different statements collide.", "anchors": ["src/svConvertor/statementParser.cpp", "src/svConvertor/delayParser.cpp", "src/svConvertor/eventExprParser.cpp"]}
{"id": "C69", "title": "Labels of statements are kept", "statement": "The labels of a converted statement are the label before it and the label of its block, in this order, written as the names of the source.", "quantifier": "all statements", "why_tests_cant": "Labels can stand before every kind of statement at any depth.", "anchors": ["src/svConvertor/statementParser.cpp: visitStatement, visitSeq_block, visitPar_block"]}
{"id": "C70", "title": "`initial` is a process that runs once", "statement": "`initial s` is converted to a process without sensitivity list that runs s and then waits forever.", "quantifier": "all statements s", "why_tests_cant": "Holds or fails depending on the form of the statement; s is arbitrary.", "anchors": ["src/svConvertor/statementParser.cpp: visitInitial_construct"]}
{"id": "C71", "title": "`always` constructs are processes of their kind", "statement": "`always`, `always_comb`, `always_ff`, `always_latch` are converted to processes of this kind with the events of their event control and their statement as body.", "quantifier": "all statements, all event controls", "why_tests_cant": "The body and the events are arbitrary.", "anchors": ["src/svConvertor/statementParser.cpp: visitAlways_construct, visitProcedural_timing_control_statement"]}
{"id": "C74", "title": "The AST of a SystemVerilog module has the meaning of the module", "statement": "Whatever expressions, statements and items mean, the AST of a module has its name, parameters (with defaults, in order), ports (direction, type, name, default, in order) and items in order with the meaning they have in the source; the objects of a source text are its descriptions in order. Two modules of different meaning never have the same AST.", "quantifier": "all modules, all interpretations", "why_tests_cant": "Modules are arbitrarily large trees with arbitrary nesting; tests see single combinations.", "anchors": ["src/svConvertor/moduleParser.cpp", "src/svConvertor/source_textParser.cpp"]}
{"id": "C75", "title": "Gates keep their connections", "statement": "An instance of a gate is converted to objects that connect the same inputs with the same outputs through the same function, for every number of inputs, outputs and instances (arrays of instances, too).", "quantifier": "all gate instantiations", "why_tests_cant": "The numbers of instances and terminals are unbounded.", "anchors": ["src/svConvertor/gateParser.cpp"]}
{"id": "C76", "title": "The AST of a generate construct has the meaning of the construct", "statement": "Loops, conditions and case selections of generate constructs, their blocks with names and all items in them, are converted to objects of the same meaning, at every depth of nesting; two constructs of different meaning never have the same AST.", "quantifier": "all generate constructs, all interpretations", "why_tests_cant": "Generate constructs nest without bound.", "anchors": ["src/svConvertor/generateParser.cpp"]}
{"id": "C77", "title": "Instances keep their parameters and connections", "statement": "An instance is converted to an object with its name and dimensions, its module, its parameters and its port connections (open, by position, by name, .name, .*) in order, so that different connections give different objects.", "quantifier": "all instantiations", "why_tests_cant": "Lists of instances, parameters and connections of any length with arbitrary expressions.", "anchors": ["src/svConvertor/moduleInstanceParser.cpp"]}
{"id": "C78", "title": "Tasks and functions keep their signature and body", "statement": "A task or function is converted to an object with its name, lifetime, result type, arguments in order (direction, type, default), declarations and statements; two of different meaning never have the same AST.", "quantifier": "all tasks and functions", "why_tests_cant": "Arbitrary argument lists, declarations and bodies.", "anchors": ["src/svConvertor/programParser.cpp"]}
{"id": "C79", "title": "Generate constructs are marked as such", "statement": "The statements that come from generate constructs have in_preproc set, so that they are told apart from procedural statements.", "quantifier": "all generate constructs", "why_tests_cant": "Depends on the nesting, which is unbounded.", "anchors": ["src/svConvertor/generateParser.cpp: visitGenerate_region, visitLoop_generate_construct, visitIf_generate_construct"]}
{"id": "C81", "title": "Port headers that mean the same give the same port", "statement": "In an ANSI port list `input T a` and `input wire T a` give the same port for every T, also for no T at all.", "quantifier": "all ports", "why_tests_cant": "Arbitrary types and dimensions.", "anchors": ["src/svConvertor/portParser.cpp: visitAnsi_port_declaration", "src/svConvertor/typeParser.cpp: visitNet_port_type"]}
{"id": "C80", "title": "Ports declared in the body are the ports of the module", "statement": "A module whose header lists only port names has exactly the ports of the header, in its order, each with the direction, type and value that the body declares for this name; a variable or net declared with the name of a port is part of the port and no separate object.", "quantifier": "all modules with a list of port names", "why_tests_cant": "Arbitrary many ports, declared in any order and grouping, possibly twice.", "anchors": ["src/svConvertor/moduleParser.cpp: VerModuleParser::visitModule_declaration (lines 110-154), visitModule_item (lines 250-286)", "src/svConvertor/portParser.cpp: visitNonansi_port, visitNonansi_port_declaration"]}
{"id": "C83", "title": "VHDL sequential statements keep their meaning", "statement": "The object of a VHDL sequential statement (assignment, if, case, loop, exit, next, return, call, wait, assert, report, null) has the meaning of the statement: targets, values, delays, conditions, choices, bodies, labels, in the order of the source; statements with different meanings have different ASTs, and every statement of a list gives one object.", "quantifier": "all sequential statements, any nesting", "why_tests_cant": "Statements nest without bound; a test sees only some shapes, and two statements with the same AST are found only by comparing all pairs.", "anchors": ["src/vhdlConvertor/statementParser.cpp: VhdlStatementParser", "src/vhdlConvertor/processParser.cpp"]}
{"id": "C84", "title": "VHDL declarations keep their meaning", "statement": "The objects of a VHDL declaration (constants, variables, signals, subprograms, types, aliases, components, packages, use clauses) have the meaning of the declaration; a declaration of several names gives one object for each name, in order, each with the type and value of the declaration.", "quantifier": "all declarations and lists of declarations", "why_tests_cant": "Arbitrary many names and nested declarations; the type and value are shared by moving and cloning, where the last name is a special case.", "anchors": ["src/vhdlConvertor/blockDeclarationParser.cpp", "src/vhdlConvertor/constantParser.cpp", "src/vhdlConvertor/variableParser.cpp", "src/vhdlConvertor/signalParser.cpp", "src/vhdlConvertor/subProgramParser.cpp", "src/vhdlConvertor/subProgramDeclarationParser.cpp", "src/vhdlConvertor/aliasParser.cpp", "src/vhdlConvertor/packageHeaderParser.cpp"]}
{"id": "C85", "title": "VHDL generics, ports and parameters keep their meaning", "statement": "The definitions of a generic list, port list or parameter list are those of the source: one per name, in order, with type, default value and direction; a port without mode is an input.", "quantifier": "all interface lists", "why_tests_cant": "Arbitrary many interface elements with many names each.", "anchors": ["src/vhdlConvertor/interfaceParser.cpp", "src/vhdlConvertor/directionParser.cpp", "src/vhdlConvertor/entityParser.cpp"]}
{"id": "C86", "title": "VHDL types keep their meaning", "statement": "The object of a type declaration tells what the type is: enumeration literals, ranges, physical units, index types, element types, record members, in order; types with different meanings have different ASTs.", "quantifier": "all type declarations", "why_tests_cant": "Arbitrary many members, units and dimensions.", "anchors": ["src/vhdlConvertor/typeDeclarationParser.cpp"]}
{"id": "C87", "title": "VHDL concurrent statements keep their meaning", "statement": "The object of a VHDL concurrent statement (process, assignment, call, assertion, block, instance, generate) has the meaning of the statement; statements with different meanings have different ASTs, and every statement gives one object, in order.", "quantifier": "all concurrent statements, any nesting of blocks and generate statements", "why_tests_cant": "Blocks and generate statements nest without bound.", "anchors": ["src/vhdlConvertor/statementParser.cpp: visitConcurrent_statement", "src/vhdlConvertor/generateStatementParser.cpp", "src/vhdlConvertor/blockParser.cpp", "src/vhdlConvertor/processParser.cpp"]}
{"id": "C88", "title": "VHDL instances keep label, unit and maps", "statement": "A component instantiation becomes an instance with the label as name, the instantiated unit, and the associations of the generic map and of the port map in order; what kind of unit is instantiated can be told from the AST.", "quantifier": "all component instantiations", "why_tests_cant": "Arbitrary many associations, of all shapes.", "anchors": ["src/vhdlConvertor/compInstanceParser.cpp", "src/vhdlConvertor/exprParser.cpp: visitAssociation_list"]}
{"id": "C89", "title": "VHDL design files keep their units in order", "statement": "The AST of a design file consists of the library clauses, use clauses, entities, architectures, packages, configurations and contexts of the file, in order, with their meaning; it is the concatenation of the objects of the units.", "quantifier": "all design files", "why_tests_cant": "Arbitrary many units of arbitrary contents.", "anchors": ["src/vhdlConvertor/designFileParser.cpp", "src/vhdlConvertor/entityParser.cpp", "src/vhdlConvertor/archParser.cpp", "src/vhdlConvertor/packageParser.cpp", "src/vhdlConvertor/packageHeaderParser.cpp"]}
{"id": "C90", "title": "hierarchyOnly keeps the hierarchy of VHDL designs", "statement": "With hierarchyOnly a VHDL file that converts without the flag converts as well, and the AST tells the same about the hierarchy: libraries, used names, entities, architectures with their entity and all component instances inside (also in blocks and generate statements) with their maps, packages; the details of entities and packages are left out.", "quantifier": "all design files", "why_tests_cant": "Relates two conversions of the same file, for arbitrary nesting.", "anchors": ["src/vhdlConvertor/designFileParser.cpp", "src/vhdlConvertor/entityParser.cpp", "src/vhdlConvertor/archParser.cpp", "src/vhdlConvertor/packageParser.cpp", "include/hdlConvertor/vhdlConvertor/baseVhdlParser.h: hierarchyOnly"]}
{"id": "C91", "title": "What is parsed reaches Python", "statement": "Every file the parser accepts is delivered to Python: the conversion of the resulting context succeeds, provided all its texts are valid UTF-8. The conversion of an object fails only if a mandatory part is missing.", "quantifier": "all contexts; all VHDL files accepted by the parser, with and without hierarchyOnly; all SystemVerilog sources accepted by the parser", "why_tests_cant": "The conversion fails on shapes of objects that only rare combinations of statements produce; a test would have to contain each of them.", "anchors": ["hdlConvertor/toPy.cpp: ToPy::toPy", "hdlConvertor/toPy_statements.cpp", "hdlConvertor/toPy.h"]}
{"id": "C92", "title": "Python gets what was parsed", "statement": "The Python objects have the classes and attributes of the C++ objects: a program that looks at them can reconstruct the parsed AST, and two ASTs that differ are different for Python.", "quantifier": "all objects, of any depth; all pairs of VHDL files", "why_tests_cant": "A conversion that loses an attribute is noticed only by comparing the Python objects of two sources that differ in just that attribute.", "anchors": ["hdlConvertor/toPy.cpp: ToPy::toPy", "hdlConvertor/toPy_statements.cpp", "hdlConvertor/toPy_type.cpp"]}
{"id": "C93", "title": "A successful conversion to Python leaks nothing", "statement": "When the conversion of the parsed objects to Python succeeds, the extension module keeps no references of its own: the only new reference is the one to the returned object, so everything is freed when the caller drops it.", "quantifier": "all contexts, objects and expressions, of any depth; all states of the reference counts", "why_tests_cant": "Reference counts are invisible to tests that look at the returned objects; a leak of one reference only shows as memory growth.", "anchors": ["hdlConvertor/toPy.h: toPy_arr, toPy_property", "hdlConvertor/toPy.cpp: ToPy::toPy", "hdlConvertor/toPy_type.cpp", "hdlConvertor/toPy_statements.cpp"]}
{"id": "C94", "title": "A failing conversion to Python releases what it made and nothing else", "statement": "When an object cannot be converted, a Python exception is raised, all Python objects made so far are released exactly once, and no reference is released that the module does not own.", "quantifier": "all contexts, objects and expressions that cannot be converted; all states of the reference counts", "why_tests_cant": "The error paths run only for rare sources, and a reference released twice corrupts memory at some later time.", "anchors": ["hdlConvertor/toPy.h: toPy_arr, toPy_property", "hdlConvertor/toPy.cpp: ToPy::toPy", "hdlConvertor/toPy_statements.cpp: HdlStmAssign, HdlStmProcess", "hdlConvertor/toPy_type.cpp"]}
{"id": "C95", "title": "Verilog sources are structured for the preprocessor as IEEE 1800 says", "statement": "Whatever mixture of code, strings, comments, macro definitions, macro calls, includes and nested conditional directives a user writes, the preprocessor sees exactly these parts, in this order and nesting, with the texts and positions the user wrote: code is never taken for a directive, a directive never for code, and no part is split or merged.", "quantifier": "all sources, of any length and nesting depth, all language versions", "why_tests_cant": "The lexer has fifteen modes and its choice depends on everything behind and in front of the current character; tests sample a few layouts.", "anchors": ["grammars/verilogPreprocLexer.g4", "grammars/verilogPreprocParser.g4", "src/verilogPreproc/verilogPreprocContainer.cpp: run_preproc"]}
{"id": "C96", "title": "A macro definition is one logical line", "statement": "The text of a macro is the rest of the line of its definition with the lines joined by a backslash at the end of the line: no other line is swallowed, nothing of the line is left in the output, and the name, the formal arguments and the defaults are those written.", "quantifier": "all macro definitions with any formal arguments, defaults, strings, comments and continuation lines, in any source", "why_tests_cant": "The interplay of strings, comments, line ends (LF, CR LF) and continuation lines is unbounded.", "anchors": ["grammars/verilogPreprocLexer.g4: DEFINE_MODE, DEFINE_BODY_MODE", "src/verilogPreproc/verilogPreproc.cpp: visitDefine, replacement text"]}
{"id": "C97", "title": "Comments do not influence the preprocessor", "statement": "Adding, removing or changing a comment anywhere in a source changes neither which directives and macro calls there are nor their arguments.", "quantifier": "all sources, all comments at all places where IEEE 1800 allows white space", "why_tests_cant": "Quantifies over two sources that differ in comments at arbitrary places.", "anchors": ["grammars/verilogPreprocLexer.g4: LINE_COMMENT, COMMENT in all modes", "grammars/verilogPreprocParser.g4"]}
{"id": "C98", "title": "No text makes the lexer of the preprocessor leave its last mode", "statement": "On every input text, whatever tokens it consists of, the lexer of the preprocessor never takes a mode from an empty mode stack (which would end the conversion with an exception that is not a ParseException), and its mode stack stays small however deep the source is nested.", "quantifier": "all texts, valid or not", "why_tests_cant": "The stack of modes depends on the whole history of the lexer.", "anchors": ["grammars/verilogPreprocLexer.g4: pushMode, popMode, exprModeMeta actions"]}
{"id": "C99", "title": "Conditional directives that do not belong together are reported", "statement": "If the preprocessor returns an output for a text, then every `ifdef and `ifndef of the text is closed by its own `endif, and every `elsif, `else and `endif belongs to an open conditional with at most one `else which comes last. Otherwise a ParseException is raised.", "quantifier": "all texts, valid or not, of any nesting depth", "why_tests_cant": "All unbalanced nestings cannot be enumerated.", "anchors": ["grammars/verilogPreprocParser.g4: conditional, ifdef_directive, ifndef_directive, else_group_of_lines", "src/verilogPreproc/verilogPreprocContainer.cpp: run_preproc"]}
{"id": "C100", "title": "A stray back-tick is reported", "statement": "A back-tick outside of strings and comments that starts neither a directive nor a macro call raises a ParseException; it is never dropped or copied silently.", "quantifier": "all sources in front of the back-tick and all texts behind it", "why_tests_cant": "The state of the lexer at the back-tick depends on all of the text in front of it.", "anchors": ["grammars/verilogPreprocLexer.g4: DIRECTIVE_MODE"]}
{"id": "C101", "title": "Preprocessing computes the meaning of a source", "statement": "For a source composed of code, strings, comments, macro definitions with formal arguments and defaults, macro calls (nested inside of macro texts and arguments), undef, undefineall, includes and nested conditionals, the result of verilog_pp and verilog_pp_str is the output which chapter 22 of IEEE 1800 gives to this source: the same pieces of text in the same order with nothing added but line ends, and the macros which are defined afterwards are those the source defines.", "quantifier": "all sources, include files, include directories, sets of predefined macros, languages Verilog 1995 to SystemVerilog 2017", "why_tests_cant": "The claim combines the lexer, the parser, the visitors, substitution, scanning again and includes; tests look at single sources.", "anchors": ["src/verilogPreproc/verilogPreproc.cpp", "src/verilogPreproc/verilogPreprocContainer.cpp", "src/verilogPreproc/macro_def_verilog.cpp", "grammars/verilogPreprocLexer.g4", "grammars/verilogPreprocParser.g4"]}
{"id": "C102", "title": "VHDL expressions are read with the precedence and associativity of the LRM", "statement": "For every VHDL expression written by the rules of IEEE 1076 chapters 8 and 9, anywhere in a file, the parser takes exactly its tokens, and the resulting HdlOp tree groups operands, names, arguments and aggregates as the LRM does: the AST has the meaning of the text. A text has only one reading. A call is represented in the same way wherever it stands.", "quantifier": "all VHDL expressions of any depth, all tokens that can follow an expression, all interpretations of operators and literals", "why_tests_cant": "The precedence results from the order of alternatives in left recursive rules and from many ambiguous rules (name, call, type conversion, attribute, aggregate, subtype); tests look at single expressions.", "anchors": ["grammars/vhdlParser.g4", "src/vhdlConvertor/exprParser.cpp", "src/vhdlConvertor/referenceParser.cpp", "src/vhdlConvertor/operatorTypeParser.cpp"]}
{"id": "C103", "title": "Parentheses around a VHDL expression do not change its meaning", "statement": "If e is a VHDL expression then (e) is accepted at the same places and its AST has the same meaning as that of e.", "quantifier": "all VHDL expressions of any depth", "why_tests_cant": "In the grammar a parenthesised expression is an aggregate with one element, which the visitor has to undo at any depth.", "anchors": ["grammars/vhdlParser.g4", "src/vhdlConvertor/exprParser.cpp", "src/vhdlConvertor/referenceParser.cpp", "src/vhdlConvertor/operatorTypeParser.cpp"]}
{"id": "C104", "title": "Text that is no VHDL expression is rejected", "statement": "If the parser accepts tokens as an expression then they are an expression by the rules of the LRM; in particular all brackets match.", "quantifier": "all token sequences", "why_tests_cant": "There are infinitely many wrong texts.", "anchors": ["grammars/vhdlParser.g4", "src/vhdlConvertor/exprParser.cpp", "src/vhdlConvertor/referenceParser.cpp", "src/vhdlConvertor/operatorTypeParser.cpp"]}
{"id": "C105", "title": "VHDL texts are divided into the lexical elements of the LRM", "statement": "A VHDL text which is divided into identifiers, reserved words, literals and delimiters by chapter 15 of IEEE 1076 (an element is as long as possible, words and numbers are separated, an apostrophe behind a name belongs to an attribute and starts a character literal elsewhere) is read as exactly these elements, each with its kind and its text, and no lexical error is reported. The division is unique.", "quantifier": "all texts, with all separators, comments, letters and literals of the LRM", "why_tests_cant": "The result depends on the longest match between about 160 rules and on the whole rest of the text; tests look at single texts.", "anchors": ["grammars/vhdlLexer.g4"]}
{"id": "C106", "title": "Layout and comments do not matter in VHDL", "statement": "Two VHDL texts with the same lexical elements, which differ only in white space, line ends and comments between them, are read as the same tokens.", "quantifier": "all texts and all layouts", "why_tests_cant": "There are infinitely many layouts; comments and separators interact with every kind of element in front and behind.", "anchors": ["grammars/vhdlLexer.g4"]}
{"id": "C107", "title": "Nothing of a VHDL text is lost and every token is a lexical element", "statement": "If a text is accepted by the VHDL lexer then it consists of the texts of the tokens, in their order, with nothing but white space and comments between them, and every token is a lexical element of the LRM of its kind.", "quantifier": "all texts", "why_tests_cant": "A wrong text can be accepted in infinitely many ways.", "anchors": ["grammars/vhdlLexer.g4"]}
{"id": "C108", "title": "From the characters of a VHDL expression to its AST", "statement": "The text of a VHDL expression, with any layout, anywhere in a file, becomes an AST which has the meaning the LRM gives to the text.", "quantifier": "all expressions of any depth in any layout, all interpretations of operators and literals", "why_tests_cant": "Lexer, parser and visitor have to agree for all texts.", "anchors": ["grammars/vhdlLexer.g4", "grammars/vhdlParser.g4", "src/vhdlConvertor/exprParser.cpp", "src/vhdlConvertor/referenceParser.cpp", "src/vhdlConvertor/operatorTypeParser.cpp"]}
{"id": "C109", "title": "SystemVerilog expressions are read with the precedence and associativity of the LRM", "statement": "For every SystemVerilog expression written by the rules of IEEE 1800-2017 chapter 11 and Annex A.8, anywhere in a file, the parser takes exactly its tokens, and the resulting HdlOp tree groups operands, selects, calls, casts, concatenations and assignment patterns as the LRM does: the AST has the meaning of the text. A text has only one reading.", "quantifier": "all SystemVerilog expressions of any depth, all tokens with which an expression does not go on, all interpretations of operators and literals", "why_tests_cant": "The precedence results from the order of alternatives in left recursive rules and from many ambiguous rules (primary, data type, cast, call, class-qualified name); tests look at single expressions.", "anchors": ["grammars/sv2017Parser.g4", "src/svConvertor/exprParser.cpp", "src/svConvertor/exprPrimaryParser.cpp"]}
{"id": "C110", "title": "Parentheses around a SystemVerilog expression do not change its meaning", "statement": "If e is a SystemVerilog expression then (e) is accepted at the same places and its AST has the same meaning as that of e.", "quantifier": "all SystemVerilog expressions of any depth", "why_tests_cant": "Parentheses are also used by casts, calls and min:typ:max expressions; this has to be told apart at any depth.", "anchors": ["grammars/sv2017Parser.g4", "src/svConvertor/exprParser.cpp", "src/svConvertor/exprPrimaryParser.cpp"]}
{"id": "C111", "title": "Text that is no SystemVerilog expression is rejected", "statement": "If the parser accepts tokens as an expression then they are an expression by the rules of the LRM; in particular all brackets match and every ? has its :.", "quantifier": "all token sequences", "why_tests_cant": "There are infinitely many wrong texts.", "anchors": ["grammars/sv2017Parser.g4", "src/svConvertor/exprParser.cpp", "src/svConvertor/exprPrimaryParser.cpp"]}
{"id": "C112", "title": "SystemVerilog texts are divided into the lexical elements of the LRM", "statement": "A preprocessed SystemVerilog or Verilog text which is divided into identifiers, keywords, literals, operators and the symbols in tables of primitives by chapter 5 of IEEE 1800 (an element is as long as possible) is read as exactly these elements, each with its kind and its text, and no lexical error is reported. The division is unique.", "quantifier": "all texts in all eight versions of the language, with all layouts, comments and literals of the LRM", "why_tests_cant": "The result depends on the longest match between about 400 rules, on the version and on the whole rest of the text; tests look at single texts.", "anchors": ["grammars/sv2017Lexer.g4", "src/hdlConvertor.cpp"]}
{"id": "C113", "title": "Layout and comments do not matter in SystemVerilog", "statement": "Two SystemVerilog texts with the same lexical elements, which differ only in white space, line ends and comments between them, are read as the same tokens.", "quantifier": "all texts, versions and layouts", "why_tests_cant": "There are infinitely many layouts; comments and white space interact with every kind of element in front and behind.", "anchors": ["grammars/sv2017Lexer.g4"]}
{"id": "C114", "title": "The version decides which words are keywords", "statement": "A word is a keyword if and only if the LRM reserves it in the chosen version (or the syntax mentions it by its text); every other word is a name.", "quantifier": "all words and all versions", "why_tests_cant": "There are infinitely many words, and 8 versions.", "anchors": ["grammars/sv2017Lexer.g4", "src/hdlConvertor.cpp"]}
{"id": "C115", "title": "Nothing of a SystemVerilog text is lost and every token is a lexical element", "statement": "If a text is accepted by the SystemVerilog lexer then it consists of the texts of the tokens, in their order, with nothing but white space and comments between them, and every token is a lexical element of the LRM of its kind in the chosen version.", "quantifier": "all texts and versions", "why_tests_cant": "A wrong text can be accepted in infinitely many ways.", "anchors": ["grammars/sv2017Lexer.g4"]}
{"id": "C116", "title": "From the characters of a SystemVerilog expression to its AST", "statement": "The preprocessed text of a SystemVerilog expression, with any layout, anywhere in a file, becomes an AST which has the meaning the LRM gives to the text.", "quantifier": "all expressions of any depth in any layout, all versions, all interpretations of operators and literals", "why_tests_cant": "Lexer, parser and visitor have to agree for all texts.", "anchors": ["grammars/sv2017Lexer.g4", "grammars/sv2017Parser.g4", "src/svConvertor/exprParser.cpp", "src/svConvertor/exprPrimaryParser.cpp", "src/svConvertor/literalParser.cpp"]}
{"id": "C117", "title": "The position of an object is the place of its text", "statement": "The code position of an object (start_line, start_column, stop_line, stop_column, counted from 1, the stop inclusive) is the place of the first and of the last character of the piece of source text the object was made from; a place belongs to one character only.", "quantifier": "all texts, all tokens an object can start and end with, both languages, all versions", "why_tests_cant": "Lines and columns are computed from running counters of the lexer over the whole text in front of the object; tests look at a few objects of a few files.", "anchors": ["include/hdlConvertor/hdlAst/codePosition.h:25-32", "include/hdlConvertor/createObject.h:13-33", "grammars/vhdlLexer.g4", "grammars/sv2017Lexer.g4", "src/hdlConvertor.cpp:54-60"]}
{"id": "C118", "title": "VHDL sequential statements are read as the LRM says", "statement": "A sequence of VHDL sequential statements written by chapter 10 of IEEE 1076 (wait, assert, report, assignments to signals and variables in all forms, procedure calls, if, case, loop, next, exit, return, null, with labels and with any nesting), standing in front of the word that ends it (end, else, elsif, when), is parsed completely, as these statements in their order, and its AST has the meaning the LRM gives to the text: an else belongs to its if, an alternative to its case, a statement to its loop, conditions, targets and values are where they were written. The reading is unique.", "quantifier": "all sequences of statements of any length and nesting, everything that may follow, all interpretations of statements and operators", "why_tests_cant": "Which alternative the parser takes depends on arbitrarily many tokens ahead (a name can start a label, a call, and two kinds of assignments), and statements nest without bound.", "anchors": ["grammars/vhdlParser.g4", "src/vhdlConvertor/statementParser.cpp", "src/vhdlConvertor/exprParser.cpp"]}
{"id": "C119", "title": "From the characters of VHDL statements to their AST", "statement": "The text of a sequence of VHDL sequential statements, with any layout, becomes an AST which has the meaning the LRM gives to the text.", "quantifier": "all sequences of statements in any layout, all interpretations of statements and operators", "why_tests_cant": "Lexer, parser and visitor have to agree for all texts.", "anchors": ["grammars/vhdlParser.g4", "src/vhdlConvertor/statementParser.cpp", "src/vhdlConvertor/exprParser.cpp", "grammars/vhdlLexer.g4"]}
{"id": "C120", "title": "VHDL design files are parsed as the LRM says", "statement": "A VHDL file written by IEEE 1076 (library and use clauses, entities, architectures, packages and package bodies, with declarations of types, subtypes, constants, variables, signals, aliases, components, subprograms, nested packages; concurrent statements: processes, calls, assertions, assignments, blocks, instances, generate statements, with any nesting) is accepted completely, and the parse tree has the meaning the LRM gives to the text: every declaration, statement, port and generic map belongs to the construct in which it was written. The text has only one reading.", "quantifier": "all design files of any length and nesting, all interpretations of declarations, statements and operators", "why_tests_cant": "The choice between alternatives depends on arbitrarily many tokens ahead (labels, calls, instances and assignments all begin with a name), and constructs nest without bound.", "anchors": ["grammars/vhdlParser.g4"]}
{"id": "C121", "title": "From the tokens of a VHDL file to its AST", "statement": "The AST of a VHDL file written by IEEE 1076 has the meaning the LRM gives to the text: the library units, their declarations and their statements, in the order of the file.", "quantifier": "all design files, all interpretations of declarations, statements and operators", "why_tests_cant": "Parser and visitors have to agree on every construct at every nesting depth.", "anchors": ["grammars/vhdlParser.g4", "src/vhdlConvertor/designFileParser.cpp", "src/vhdlConvertor/entityParser.cpp", "src/vhdlConvertor/archParser.cpp", "src/vhdlConvertor/packageHeaderParser.cpp", "src/vhdlConvertor/statementParser.cpp", "src/vhdlConvertor/exprParser.cpp"]}
{"id": "C122", "title": "From the characters of a VHDL file to its AST", "statement": "The text of a VHDL file, with any layout, becomes an AST which has the meaning the LRM gives to the text.", "quantifier": "all design files in any layout, all interpretations of declarations, statements and operators", "why_tests_cant": "Lexer, parser and visitors have to agree for all texts.", "anchors": ["grammars/vhdlParser.g4", "grammars/vhdlLexer.g4", "src/vhdlConvertor/designFileParser.cpp", "src/vhdlConvertor/entityParser.cpp", "src/vhdlConvertor/archParser.cpp", "src/vhdlConvertor/packageHeaderParser.cpp", "src/vhdlConvertor/statementParser.cpp", "src/vhdlConvertor/exprParser.cpp"]}
{"id": "C123", "title": "From VHDL files to Python objects", "statement": "HdlConvertor().parse([...], Language.VHDL, ...) of VHDL files written by IEEE 1076 raises no exception, and the HdlContext it returns holds the library units of the files, in the order of the files, with the meaning the LRM gives to the texts, whatever the layout; parse_str does the same for one text. The Python objects show the same objects.", "quantifier": "all lists of VHDL files of any size, in any layout, all interpretations of declarations, statements and operators", "why_tests_cant": "All layers have to agree for all texts: reading, decoding, lexer, parser, visitors, the shared context and the conversion to Python.", "anchors": ["grammars/vhdlParser.g4", "grammars/vhdlLexer.g4", "src/hdlConvertor.cpp", "include/hdlConvertor/parserContainer.h", "hdlConvertor/_hdlConvertor.pyx", "hdlConvertor/toPy.cpp", "src/vhdlConvertor/designFileParser.cpp"]}
{"id": "C124", "title": "SystemVerilog statements are read as the LRM says", "statement": "A procedural statement of IEEE 1800 is accepted and its AST has the meaning the LRM gives to the text: what belongs to which block, branch, loop, case item, delay or event control is decided as the LRM says, an else belongs to the closest if, and no text has two readings.", "quantifier": "all procedural statements of any size and nesting, all tokens that may follow them, all interpretations of statements and operators", "why_tests_cant": "The grammar is ambiguous and the parser searches among unboundedly many parses; statements nest without bound.", "anchors": ["grammars/sv2017Parser.g4", "src/svConvertor/statementParser.cpp", "src/svConvertor/exprParser.cpp", "src/svConvertor/delayParser.cpp", "src/svConvertor/eventExprParser.cpp"]}
{"id": "C125", "title": "From the characters of a SystemVerilog statement to the AST", "statement": "The text of a procedural statement, with any white space and comments, becomes an AST with the meaning the LRM gives to it, for every version of the language.", "quantifier": "all statements, all layouts, all versions, all interpretations of statements and operators", "why_tests_cant": "Lexer, parser and visitors have to agree for all texts.", "anchors": ["grammars/sv2017Parser.g4", "grammars/sv2017Lexer.g4", "src/svConvertor/statementParser.cpp", "src/svConvertor/exprParser.cpp", "src/svConvertor/delayParser.cpp", "src/svConvertor/eventExprParser.cpp"]}
{"id": "C126", "title": "SystemVerilog module items and generate constructs are read as the LRM says", "statement": "An item of a module or generate block of IEEE 1800 (instance, continuous assignment, process, genvar, generate loop, if, case, block, region) is accepted and its objects have the meaning the LRM gives to the text: every instance is there with its parameters and connections, an else belongs to the closest if, and no text has two readings.", "quantifier": "all items of any size and nesting, all tokens that may follow them, all interpretations of items, statements and operators", "why_tests_cant": "The grammar is ambiguous (instances of modules, primitives and gates, generate blocks and statements look alike) and the parser searches among unboundedly many parses; items nest without bound.", "anchors": ["grammars/sv2017Parser.g4", "src/svConvertor/generateParser.cpp", "src/svConvertor/moduleInstanceParser.cpp", "src/svConvertor/statementParser.cpp", "src/svConvertor/exprParser.cpp"]}
{"id": "C127", "title": "From the characters of a SystemVerilog module item to the AST", "statement": "The text of an item of a module or generate block, with any white space and comments, becomes objects with the meaning the LRM gives to it, for every version of the language.", "quantifier": "all items, all layouts, all versions, all interpretations of items, statements and operators", "why_tests_cant": "Lexer, parser and visitors have to agree for all texts.", "anchors": ["grammars/sv2017Parser.g4", "grammars/sv2017Lexer.g4", "src/svConvertor/generateParser.cpp", "src/svConvertor/moduleInstanceParser.cpp", "src/svConvertor/statementParser.cpp", "src/svConvertor/exprParser.cpp"]}
{"id": "C128", "title": "SystemVerilog source texts of modules are read as the LRM says", "statement": "A source text of modules of IEEE 1800 is accepted completely and every module is there, in order, with the meaning the LRM gives to the text: its name, the parameters of its header and its body with their types and values, all its ports with their directions and types (inherited from the port before where the text does not repeat them, and taken from the declarations in the body where the header only lists names) and all its items; no text has two readings.", "quantifier": "all source texts with any number of modules, ports and items of any size and nesting, all interpretations of modules, items, statements and operators", "why_tests_cant": "The grammar is ambiguous (ports in the old and the new style, an identifier that is a type or a name, descriptions that look alike) and the parser searches among unboundedly many parses of a whole file.", "anchors": ["grammars/sv2017Parser.g4", "src/svConvertor/source_textParser.cpp", "src/svConvertor/moduleParser.cpp", "src/svConvertor/portParser.cpp", "src/svConvertor/generateParser.cpp", "src/svConvertor/moduleInstanceParser.cpp", "src/svConvertor/statementParser.cpp", "src/svConvertor/exprParser.cpp"]}
{"id": "C129", "title": "From the characters of a SystemVerilog file to the AST", "statement": "The characters of a file with modules, with any white space and comments, become module objects with the meaning the LRM gives to the text, for every version of the language.", "quantifier": "all files of modules, all layouts, all versions, all interpretations of modules, items, statements and operators", "why_tests_cant": "Lexer, parser and visitors have to agree for all texts.", "anchors": ["grammars/sv2017Parser.g4", "grammars/sv2017Lexer.g4", "src/svConvertor/source_textParser.cpp", "src/svConvertor/moduleParser.cpp", "src/svConvertor/portParser.cpp", "src/svConvertor/generateParser.cpp", "src/svConvertor/moduleInstanceParser.cpp", "src/svConvertor/statementParser.cpp", "src/svConvertor/exprParser.cpp"]}
