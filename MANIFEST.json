{
 "claims": [
  {
   "property": "C01",
   "status": "proved",
   "theorems": [
    "Verif.C01_terminates_str",
    "Verif.C01_terminates_file"
   ],
   "note": "the ANTLR parse of each single text is assumed to terminate"
  },
  {
   "property": "C02",
   "status": "partial",
   "theorems": [
    "Verif.C02_verbatim_str",
    "Verif.C02_verbatim_file",
    "Verif.C02_text_partial",
    "Verif.C02_source_partial",
    "Verif.C02_violated_witness"
   ],
   "note": "Exact for every sequence of code tokens. On texts, with the model of the lexer: a text without back-ticks is reproduced or rejected, covered sources are reproduced; a slash directly in front of a string and a slash at the end of the text are rejected."
  },
  {
   "property": "C03",
   "status": "proved",
   "theorems": [
    "Verif.C03_line_counter"
   ],
   "note": ""
  },
  {
   "property": "C04",
   "status": "proved",
   "theorems": [
    "Verif.C04_position",
    "Verif.C04_stable",
    "Verif.C04_no_ub",
    "Verif.C04_set_line",
    "Verif.C04_set_line_text"
   ],
   "note": ""
  },
  {
   "property": "C05",
   "status": "partial",
   "theorems": [
    "Verif.C05_partial",
    "Verif.C05_violated_file_after_include",
    "Verif.C05_violated_witness"
   ],
   "note": "the property is false for the code: text behind an include is attributed to the included file; the partial theorem covers texts without a change of the file"
  },
  {
   "property": "C06",
   "status": "proved",
   "theorems": [
    "Verif.C06_simultaneous_substitution",
    "Verif.C06_no_params"
   ],
   "note": ""
  },
  {
   "property": "C07",
   "status": "proved",
   "theorems": [
    "Verif.C07_round_trip"
   ],
   "note": ""
  },
  {
   "property": "C08",
   "status": "proved",
   "theorems": [
    "Verif.C08_strings_immune"
   ],
   "note": ""
  },
  {
   "property": "C09",
   "status": "partial",
   "theorems": [
    "Verif.C09_substitution_partial",
    "Verif.C09_violated_witness",
    "Verif.C09_violated_general"
   ],
   "note": "false for a formal directly followed by an opening bracket (proved negation); holds for all other texts"
  },
  {
   "property": "C10",
   "status": "proved",
   "theorems": [
    "Verif.C10_argument_check",
    "Verif.C10_too_many",
    "Verif.C10_default_value",
    "Verif.C10_braces",
    "Verif.C10_only_parse_errors"
   ],
   "note": ""
  },
  {
   "property": "C11",
   "status": "proved",
   "theorems": [
    "Verif.C11_arguments"
   ],
   "note": ""
  },
  {
   "property": "C12",
   "status": "proved",
   "theorems": [
    "Verif.C12_undefined_str",
    "Verif.C12_undefined_file",
    "Verif.C12_success_all_defined"
   ],
   "note": ""
  },
  {
   "property": "C13",
   "status": "partial",
   "theorems": [
    "Verif.C13_ifdef",
    "Verif.C13_ifndef_partial",
    "Verif.C13_violated_general",
    "Verif.C13_violated_witness"
   ],
   "note": "false for `ifndef ... `elsif: the polarity is applied to the `elsif too (proved negation); proved for `ifdef chains and `ifndef without `elsif"
  },
  {
   "property": "C14",
   "status": "partial",
   "theorems": [
    "Verif.C14_skipped_irrelevant_partial",
    "Verif.C14_one_branch",
    "Verif.C14_violated_witness"
   ],
   "note": "holds for all contents the grammar accepts; text the grammar rejects is reported in skipped branches as well (proved negation)"
  },
  {
   "property": "C15",
   "status": "partial",
   "theorems": [
    "Verif.C15_violated_general",
    "Verif.C15_violated_witness",
    "Verif.C15_new_definition_partial"
   ],
   "note": "false: the first definition wins (proved negation); the partial theorem covers names that are not yet defined"
  },
  {
   "property": "C16",
   "status": "partial",
   "theorems": [
    "Verif.C16_effect_partial",
    "Verif.C16_violated_use_after_erase",
    "Verif.C16_violated_witness"
   ],
   "note": "the effect on the database is proved; memory safety is false (use after erase, proved negation)"
  },
  {
   "property": "C17",
   "status": "proved",
   "theorems": [
    "Verif.C17_api_macros_survive",
    "Verif.C17_visible_in_run"
   ],
   "note": ""
  },
  {
   "property": "C18",
   "status": "proved",
   "theorems": [
    "Verif.C18_isolated"
   ],
   "note": ""
  },
  {
   "property": "C19",
   "status": "partial",
   "theorems": [
    "Verif.C19_first_existing_partial",
    "Verif.C19_not_found",
    "Verif.C19_violated_witness"
   ],
   "note": "false for files included through a macro text (proved negation)"
  },
  {
   "property": "C20",
   "status": "proved",
   "theorems": [
    "Verif.C20_balanced_str",
    "Verif.C20_balanced_file",
    "Verif.C20_balanced_construct",
    "Verif.C20_visible_directories"
   ],
   "note": ""
  },
  {
   "property": "C21",
   "status": "proved",
   "theorems": [
    "Verif.C21_line"
   ],
   "note": ""
  },
  {
   "property": "C22",
   "status": "proved",
   "theorems": [
    "Verif.C22_unescape_dblquotes",
    "Verif.C22_no_marker",
    "Verif.C22_simple_string"
   ],
   "note": ""
  },
  {
   "property": "C23",
   "status": "proved",
   "theorems": [
    "Verif.C23_trim",
    "Verif.C23_trim_unique",
    "Verif.C23_trim_idem",
    "Verif.C23_rtrim"
   ],
   "note": ""
  },
  {
   "property": "C24",
   "status": "proved",
   "theorems": [
    "Verif.C24_replace_substring",
    "Verif.C24_replace_substring_exact",
    "Verif.C24_no_marker",
    "Verif.C24_empty_marker_diverges"
   ],
   "note": ""
  },
  {
   "property": "C25",
   "status": "proved",
   "theorems": [
    "Verif.C25_iso_8859_1",
    "Verif.C25_injective",
    "Verif.C25_ascii"
   ],
   "note": ""
  },
  {
   "property": "C26",
   "status": "partial",
   "theorems": [
    "Verif.C26_dispatch_partial",
    "Verif.C26_violated_utf16"
   ],
   "note": "utf-16 input never gives a text (proved negation)"
  },
  {
   "property": "C27",
   "status": "proved",
   "theorems": [
    "Verif.C27_syntax_errors",
    "Verif.C27_first_failing_file"
   ],
   "note": ""
  },
  {
   "property": "C28",
   "status": "partial",
   "theorems": [
    "Verif.C28_violated_witness",
    "Verif.C28_violated_general",
    "Verif.C28_no_directives_partial"
   ],
   "note": "false: the line map is not used by the error logger (proved negation); holds for inputs without directives"
  },
  {
   "property": "C29",
   "status": "partial",
   "theorems": [
    "Verif.C29_unsigned",
    "Verif.C29_based_partial",
    "Verif.C29_violated_ws",
    "Verif.C29_violated_signed",
    "Verif.C29_violated_size",
    "Verif.C29_violated_unbased"
   ],
   "note": "false for white space inside of the literal, for the sign letter, for sizes above 2^31 and for unbased unsized literals (proved negations)"
  },
  {
   "property": "C30",
   "status": "partial",
   "theorems": [
    "Verif.C30_partial",
    "Verif.C30_violated_octal",
    "Verif.C30_violated_decimal",
    "Verif.C30_violated_signed",
    "Verif.C30_violated_size"
   ],
   "note": "false for octal, decimal, signed without size and sizes with underscores (proved negations); proved for all other literals"
  },
  {
   "property": "C31",
   "status": "partial",
   "theorems": [
    "Verif.C31_partial",
    "Verif.C31_violated_big",
    "Verif.C31_violated_underscore"
   ],
   "note": "false for underscores, exponents and values above 2^31 (proved negations)"
  },
  {
   "property": "C32",
   "status": "partial",
   "theorems": [
    "Verif.C32_violated"
   ],
   "note": "false: the returned digits start with # (proved negation for every literal); the base is right"
  },
  {
   "property": "C33",
   "status": "proved",
   "theorems": [
    "Verif.C33_string_roundtrip"
   ],
   "note": ""
  },
  {
   "property": "C34",
   "status": "partial",
   "theorems": [
    "Verif.C34_violated",
    "Verif.C34_violated_two",
    "Verif.C34_partial"
   ],
   "note": "false: the terminating white space stays in the name (proved negation for every identifier)"
  },
  {
   "property": "C35",
   "status": "partial",
   "theorems": [
    "Verif.C35_partial",
    "Verif.C35_violated_space",
    "Verif.C35_violated_lost",
    "Verif.C35_violated_block"
   ],
   "note": "false for the usual \"-- text\" (proved negation); which comments are used and their order is proved"
  },
  {
   "property": "C36",
   "status": "proved",
   "theorems": [
    "Verif.C36_operator_names"
   ],
   "note": ""
  },
  {
   "property": "C37",
   "status": "partial",
   "theorems": [
    "Verif.Vhdl.C37_unary_partial",
    "Verif.Vhdl.C37_violated_xnor"
   ],
   "note": "false for the unary xnor (proved negation for every operand); proved for all other operators"
  },
  {
   "property": "C38",
   "status": "proved",
   "theorems": [
    "Verif.Vhdl.C38_priority",
    "Verif.Vhdl.C38_meaning_partial",
    "Verif.Vhdl.C38_violated_delay",
    "Verif.Vhdl.C38_violated_elements"
   ],
   "note": "the priority is proved for all chains and all waveforms; that single waveforms keep their meaning holds only for one element without delay (negations proved)"
  },
  {
   "property": "C39",
   "status": "partial",
   "theorems": [
    "Verif.Sv.C39_concatenation_partial",
    "Verif.Sv.C39_replication",
    "Verif.Sv.C39_violated_empty"
   ],
   "note": "proved for all parts and all n \u2265 1 and for replications; {} yields a null pointer (negation proved)"
  },
  {
   "property": "C40",
   "status": "partial",
   "theorems": [
    "Verif.Sv.C40_target_meaning_partial",
    "Verif.Sv.C40_violated_member",
    "Verif.Sv.C40_violated_member_meaning"
   ],
   "note": "the code drops all members of targets (negation proved for every target); proved for targets without member access"
  },
  {
   "property": "C41",
   "status": "partial",
   "theorems": [
    "Verif.Sv.C41_arguments_partial",
    "Verif.Sv.C41_system_arguments_partial",
    "Verif.Sv.C41_violated_last",
    "Verif.Sv.C41_violated_no_arguments"
   ],
   "note": "proved for all argument lists whose last argument is given; an omitted last argument is lost and p() has the AST of p (negations proved)"
  },
  {
   "property": "C42",
   "status": "partial",
   "theorems": [
    "Verif.Sv.C42_ansi",
    "Verif.Sv.C42_nonansi",
    "Verif.Sv.C42_violated_extern"
   ],
   "note": "Proved for module definitions: ANSI lists without port declarations in the body; non-ANSI lists of simple distinct names (the last declaration counts). Violated for extern modules: the direction stays UNKNOWN and the conversion to Python raises."
  },
  {
   "property": "C43",
   "status": "partial",
   "theorems": [
    "Verif.Sv.C43_variables",
    "Verif.Sv.C43_nets",
    "Verif.Sv.C43_parameters",
    "Verif.Sv.C43_port_declarations_partial",
    "Verif.Sv.C43_tf_ports_partial",
    "Verif.Sv.C43_ansi_ports_partial",
    "Verif.Sv.C43_variable_meaning_partial",
    "Verif.Sv.C43_violated_port_declaration",
    "Verif.Sv.C43_violated_ansi"
   ],
   "note": "Full for variables, nets and parameters; for ports only if the type has its width (and is not marked var). Violated otherwise: in `input logic a [3:0], b` the port b gets the dimension of a."
  },
  {
   "property": "C44",
   "status": "partial",
   "theorems": [
    "Verif.C44_copy_equal_partial",
    "Verif.C44_copy_exists_iff",
    "Verif.C44_violated_struct",
    "Verif.C44_violated_position"
   ],
   "note": "Copies are equal as seen from Python unless the tree holds an unsupported construct with a known position; exactly the trees without class definition and null operand can be copied. The code violates the claim for struct/class types and for the position of unsupported constructs."
  },
  {
   "property": "C45",
   "status": "partial",
   "theorems": [
    "Verif.C45_dict_laws_partial",
    "Verif.C45_update_partial",
    "Verif.C45_violated_pop",
    "Verif.C45_violated_setdefault",
    "Verif.C45_seen_by_run",
    "Verif.C45_run_refines"
   ],
   "note": "false for pop and for the result of setdefault (proved negations); the other laws are proved for all reachable states"
  },
  {
   "property": "C46",
   "status": "partial",
   "theorems": [
    "Verif.C46_violated_general",
    "Verif.C46_violated_witness",
    "Verif.C46_get_body_partial",
    "Verif.C46_get_params",
    "Verif.C46_violated_new",
    "Verif.C46_new_partial"
   ],
   "note": "false for the first parameter in get_body and for parameters without default in new (proved negations)"
  },
  {
   "property": "C47",
   "status": "partial",
   "theorems": [
    "Verif.C47_no_double_free_partial",
    "Verif.C47_violated_two_keys",
    "Verif.C47_violated_undef",
    "Verif.C47_violated_stale_wrapper",
    "Verif.C47_violated_leak"
   ],
   "note": "false without discipline (proved negations); proved for all disciplined histories"
  },
  {
   "property": "C48",
   "status": "proved",
   "theorems": [
    "Verif.C48_transparent"
   ],
   "note": ""
  },
  {
   "property": "C49",
   "status": "partial",
   "theorems": [
    "Verif.C49_plain_text_partial",
    "Verif.C49_violated_witness"
   ],
   "note": "false for texts that are preprocessed again (proved negation); proved for texts without back-tick"
  },
  {
   "property": "C50",
   "status": "partial",
   "theorems": [
    "Verif.C50_strings_terminated_partial",
    "Verif.C50_violated_witness"
   ],
   "note": "false for a string that ends with an escaped backslash; proved for texts without escapes"
  },
  {
   "property": "C51",
   "status": "partial",
   "theorems": [
    "Verif.C51_violated_witness",
    "Verif.C51_violated_general"
   ],
   "note": "false: proved negation"
  },
  {
   "property": "C52",
   "status": "partial",
   "theorems": [
    "Verif.C52_encoding_partial",
    "Verif.C52_violated_witness"
   ],
   "note": "false for includes inside of macro texts (proved negation)"
  },
  {
   "property": "C53",
   "status": "partial",
   "theorems": [
    "Verif.C53_violated_general",
    "Verif.C53_violated_witness",
    "Verif.C53_no_abort_partial"
   ],
   "note": "false: texts with an unterminated string end the process (proved negation)"
  },
  {
   "property": "C54",
   "status": "proved",
   "theorems": [
    "Verif.C54_self_recursive_macro"
   ],
   "note": "for a call behind plain text, macro without parameters"
  },
  {
   "property": "C55",
   "status": "proved",
   "theorems": [
    "Verif.C55_self_including_file"
   ],
   "note": "for an include behind plain text"
  },
  {
   "property": "C56",
   "status": "proved",
   "theorems": [
    "Verif.C56_no_ub"
   ],
   "note": "use after erase of `undef is tracked separately, see C16"
  },
  {
   "property": "C57",
   "status": "partial",
   "theorems": [
    "Verif.C57_violated_general",
    "Verif.C57_violated_witness",
    "Verif.C57_first_call_partial"
   ],
   "note": "false: objects of earlier calls stay in the context (proved negation); holds for the first call"
  },
  {
   "property": "C58",
   "status": "partial",
   "theorems": [
    "Verif.C58_string_input_partial",
    "Verif.C58_violated_general",
    "Verif.C58_violated_witness"
   ],
   "note": "false for iso-8859-1 and non-ASCII text (proved negation)"
  },
  {
   "property": "C59",
   "status": "proved",
   "theorems": [
    "Verif.C59_files_independent"
   ],
   "note": ""
  },
  {
   "property": "C60",
   "status": "partial",
   "theorems": [
    "Verif.C60_partial",
    "Verif.C60_violated"
   ],
   "note": "false for characters of more than one byte (proved negation)"
  },
  {
   "property": "C61",
   "status": "partial",
   "theorems": [
    "Verif.Vhdl.C61_expression_meaning_partial",
    "Verif.Vhdl.C61_name_meaning_partial",
    "Verif.Vhdl.C61_subtype_meaning_partial",
    "Verif.Vhdl.C61_expression_injective_partial",
    "Verif.Vhdl.C61_violated_cond",
    "Verif.Vhdl.C61_violated_choices",
    "Verif.Vhdl.C61_violated_choices_meaning",
    "Verif.Vhdl.C61_violated_aggregate",
    "Verif.Vhdl.C61_violated_record_constraint"
   ],
   "note": "proved for the supported fragment (okExpression); the excluded constructs are wrong (negations proved)"
  },
  {
   "property": "C62",
   "status": "proved",
   "theorems": [
    "Verif.Vhdl.C62_procedure_call",
    "Verif.Vhdl.C62_procedure_call_operands"
   ],
   "note": "the meaning is proved for arguments in the supported fragment of C61, the structure for all"
  },
  {
   "property": "C63",
   "status": "partial",
   "theorems": [
    "Verif.Sv.C63_expression_meaning_partial",
    "Verif.Sv.C63_type_meaning_partial",
    "Verif.Sv.C63_expression_injective_partial",
    "Verif.Sv.C63_type_injective_partial",
    "Verif.Sv.C63_violated_equivalence",
    "Verif.Sv.C63_violated_mintypmax",
    "Verif.Sv.C63_violated_single_concat",
    "Verif.Sv.C63_violated_array_method",
    "Verif.Sv.C63_violated_array_method_meaning",
    "Verif.Sv.C63_violated_with",
    "Verif.Sv.C63_violated_callWith",
    "Verif.Sv.C63_violated_dropped",
    "Verif.Sv.C63_violated_types",
    "Verif.Sv.C63_violated_dimensions"
   ],
   "note": "proved for the supported fragment (okExp, okDType); the excluded constructs are wrong (negations proved)"
  },
  {
   "property": "C67",
   "status": "partial",
   "theorems": [
    "Verif.Sv.C67_violated_triple_and",
    "Verif.Sv.C67_violated_pattern_target",
    "Verif.Sv.C67_violated_instances",
    "Verif.Sv.C67_violated_typedef",
    "Verif.Sv.C67_violated_case_generate",
    "Verif.Sv.C67_violated_else_region"
   ],
   "note": "false: negations proved; the absence of crashes in the supported fragment is part of C63 and C40"
  },
  {
   "property": "C82",
   "status": "partial",
   "theorems": [
    "Verif.C82_call_place",
    "Verif.C82_define_place",
    "Verif.C82_located_str_partial",
    "Verif.C82_located_file_partial",
    "Verif.C82_violated_unfinished",
    "Verif.C82_violated_macro_text"
   ],
   "note": "Every reached failing call or definition is reported with its place, and every ParseException names the place of a construct of a preprocessed text or lists syntax errors, except one message of SystemVerilog (unfinished `\" string). False in general: that message has no place, and for a failing construct inside of the text of a macro the line counts from the start of this text but the name of the calling file is given."
  },
  {
   "property": "C64",
   "status": "partial",
   "theorems": [
    "Verif.Sv.C64_dimensions_partial",
    "Verif.Sv.C64_violated",
    "Verif.Sv.C64_violated_wide"
   ],
   "note": "Violated for every vector type: packed and unpacked dimensions give the same object. The dimensions themselves and their order can be read from the result."
  },
  {
   "property": "C65",
   "status": "partial",
   "theorems": [
    "Verif.Sv.C65_ranged_partial",
    "Verif.Sv.C65_ranged_distinct",
    "Verif.Sv.C65_violated_scalar",
    "Verif.Sv.C65_violated_signed",
    "Verif.Sv.C65_violated_data_type",
    "Verif.Sv.C65_violated_user",
    "Verif.Sv.C65_violated_strength"
   ],
   "note": "Holds for implicit types with a dimension only."
  },
  {
   "property": "C66",
   "status": "partial",
   "theorems": [
    "Verif.Sv.C66_body_partial",
    "Verif.Sv.C66_violated_ansi",
    "Verif.Sv.C66_violated_var"
   ],
   "note": "Holds for declarations in the body without var; arguments in parentheses are always inputs."
  },
  {
   "property": "C72",
   "status": "partial",
   "theorems": [
    "Verif.Sv.C72_instances",
    "Verif.Sv.C72_assignments",
    "Verif.Sv.C72_genvars",
    "Verif.Sv.C72_input_gates",
    "Verif.Sv.C72_output_gates",
    "Verif.Sv.C72_violated_import"
   ],
   "note": "Full for instances, assignments, genvars and gates. Violated for imports."
  },
  {
   "property": "C73",
   "status": "partial",
   "theorems": [
    "Verif.Sv.C73_header_parameters_partial",
    "Verif.Sv.C73_variables",
    "Verif.Sv.C73_violated_header",
    "Verif.Sv.C73_violated_parameter_dimensions",
    "Verif.Sv.C65_violated_strength"
   ],
   "note": "Violated: parameters after leading assignments without keyword, dimensions of parameters, nets with a strength."
  },
  {
   "property": "C68",
   "status": "partial",
   "theorems": [
    "Verif.Sv.C68_statement_meaning_partial",
    "Verif.Sv.C68_statement_injective_partial",
    "Verif.Sv.C68_violated_unsupported",
    "Verif.Sv.C68_violated_new",
    "Verif.Sv.C68_violated_case_inside",
    "Verif.Sv.C68_violated_case_matches",
    "Verif.Sv.C68_violated_unique_if",
    "Verif.Sv.C68_violated_condition",
    "Verif.Sv.C68_violated_events",
    "Verif.Sv.C68_violated_repeat_event",
    "Verif.Sv.C68_violated_time",
    "Verif.Sv.C68_violated_cycle_delay",
    "Verif.Sv.C68_violated_foreach",
    "Verif.Sv.C68_violated_delayed_fork",
    "Verif.Sv.C68_violated_parameter",
    "Verif.Sv.C68_violated_new_value",
    "Verif.Sv.C68_violated_let"
   ],
   "note": "Holds for the statements okStm accepts; for each construct left out there is a violation theorem."
  },
  {
   "property": "C69",
   "status": "partial",
   "theorems": [
    "Verif.Sv.C69_labels_partial",
    "Verif.Sv.C69_violated_escaped",
    "Verif.Sv.C69_violated_else_if",
    "Verif.Sv.C69_violated_end"
   ],
   "note": "Holds for labels that are no escaped identifiers; violated by escaped labels, by an if after else and by labels at the end of a block only."
  },
  {
   "property": "C70",
   "status": "partial",
   "theorems": [
    "Verif.Sv.C70_initial_partial",
    "Verif.Sv.C70_violated_fork"
   ],
   "note": "Violated by initial fork."
  },
  {
   "property": "C71",
   "status": "partial",
   "theorems": [
    "Verif.Sv.C71_always_events_partial",
    "Verif.Sv.C71_always_plain_partial",
    "Verif.Sv.C71_always_delay_partial",
    "Verif.Sv.C71_violated_always"
   ],
   "note": "Violated by plain always without timing control."
  },
  {
   "property": "C74",
   "status": "partial",
   "theorems": [
    "Verif.Sv.C74_module_meaning_partial",
    "Verif.Sv.C74_source_meaning_partial",
    "Verif.Sv.C74_module_injective_partial",
    "Verif.Sv.C74_violated_ignored",
    "Verif.Sv.C74_violated_other",
    "Verif.Sv.C74_violated_description",
    "Verif.Sv.C74_violated_body_parameters",
    "Verif.Sv.C74_violated_local_parameter",
    "Verif.Sv.C74_violated_escaped"
   ],
   "note": "Holds for the modules okMod accepts; for each kind of construct left out there is a violation theorem here or in C63 to C78."
  },
  {
   "property": "C75",
   "status": "partial",
   "theorems": [
    "Verif.Sv.C75_gate_meaning_partial",
    "Verif.Sv.C75_violated_outputs",
    "Verif.Sv.C75_violated_array",
    "Verif.Sv.C75_violated_other"
   ],
   "note": "Violated by several outputs, arrays of gates and all gates but and, or, ..., buf, not."
  },
  {
   "property": "C76",
   "status": "partial",
   "theorems": [
    "Verif.Sv.C76_generate_meaning_partial",
    "Verif.Sv.C76_generate_injective_partial",
    "Verif.Sv.C76_violated_parameter",
    "Verif.Sv.C76_violated_extern",
    "Verif.Sv.C76_violated_labels"
   ],
   "note": "Holds for the items okGItem accepts."
  },
  {
   "property": "C77",
   "status": "partial",
   "theorems": [
    "Verif.Sv.C77_instance_meaning_partial",
    "Verif.Sv.C77_violated_name",
    "Verif.Sv.C77_violated_null",
    "Verif.Sv.C74_violated_escaped"
   ],
   "note": "Violated by .name without parentheses and by null."
  },
  {
   "property": "C78",
   "status": "partial",
   "theorems": [
    "Verif.Sv.C78_function_meaning_partial",
    "Verif.Sv.C78_violated_scope",
    "Verif.Sv.C78_violated_argument_type",
    "Verif.Sv.C66_violated_ansi",
    "Verif.Sv.C66_violated_var"
   ],
   "note": "Holds for what okTf accepts; scopes, inherited argument types and directions in parentheses are dropped."
  },
  {
   "property": "C79",
   "status": "partial",
   "theorems": [
    "Verif.Sv.C79_region_partial",
    "Verif.Sv.C79_violated"
   ],
   "note": "Holds only directly inside of generate/endgenerate."
  },
  {
   "property": "C81",
   "status": "partial",
   "theorems": [
    "Verif.Sv.C81_wire_partial",
    "Verif.Sv.C81_violated"
   ],
   "note": "Holds for types without type name; violated without type."
  },
  {
   "property": "C80",
   "status": "partial",
   "theorems": [
    "Verif.Sv.C80_ports_partial",
    "Verif.Sv.C80_redeclared_partial",
    "Verif.Sv.C80_violated_empty",
    "Verif.Sv.C80_violated_named"
   ],
   "note": "Holds for lists of names that the body declares once each; violated by empty positions and explicitly named ports. Missing: meaning of modules with variables named like a port (only shown on the level of the AST)."
  },
  {
   "property": "C83",
   "status": "partial",
   "theorems": [
    "Verif.Vhdl.C83_statement_meaning_partial",
    "Verif.Vhdl.C83_statements_meaning_partial",
    "Verif.Vhdl.C83_statement_injective_partial",
    "Verif.Vhdl.C83_one_object_each",
    "Verif.Vhdl.C83_violated_wait",
    "Verif.Vhdl.C83_violated_assert",
    "Verif.Vhdl.C83_violated_force",
    "Verif.Vhdl.C83_violated_delay",
    "Verif.Vhdl.C83_violated_case",
    "Verif.Vhdl.C83_violated_selected",
    "Verif.Vhdl.C83_violated_selected_ub",
    "Verif.Vhdl.C83_violated_selected_variable",
    "Verif.Vhdl.C83_violated_conditional_variable",
    "Verif.Vhdl.C83_violated_label"
   ],
   "note": "Holds for what okSeq accepts; wait, assert, force, delay mechanisms, matching case, selected and conditional assignments lose their meaning."
  },
  {
   "property": "C84",
   "status": "partial",
   "theorems": [
    "Verif.Vhdl.C84_declaration_meaning_partial",
    "Verif.Vhdl.C84_declarations_meaning_partial",
    "Verif.Vhdl.C84_declarations_injective_partial",
    "Verif.Vhdl.C84_one_object_per_name",
    "Verif.Vhdl.C84_violated_dropped",
    "Verif.Vhdl.C84_violated_signal_kind",
    "Verif.Vhdl.C84_violated_alias",
    "Verif.Vhdl.C84_violated_generics"
   ],
   "note": "Holds for what okDecl accepts; several kinds of declarations are dropped."
  },
  {
   "property": "C85",
   "status": "partial",
   "theorems": [
    "Verif.Vhdl.C85_interface_meaning_partial",
    "Verif.Vhdl.C85_interface_injective_partial",
    "Verif.Vhdl.C85_one_definition_per_name",
    "Verif.Vhdl.C85_port_direction",
    "Verif.Vhdl.C85_violated_signal_parameter",
    "Verif.Vhdl.C85_violated_bus",
    "Verif.Vhdl.C85_violated_dropped"
   ],
   "note": "Holds for what okIntfs accepts; signal parameters, bus and file parameters are lost."
  },
  {
   "property": "C86",
   "status": "partial",
   "theorems": [
    "Verif.Vhdl.C86_type_meaning_partial",
    "Verif.Vhdl.C86_type_injective_partial",
    "Verif.Vhdl.C86_violated_types"
   ],
   "note": "Holds for enumerations, ranges, physical types, arrays and records; access, file and protected types are lost."
  },
  {
   "property": "C87",
   "status": "partial",
   "theorems": [
    "Verif.Vhdl.C87_statement_meaning_partial",
    "Verif.Vhdl.C87_statement_injective_partial",
    "Verif.Vhdl.C87_one_object_each",
    "Verif.Vhdl.C87_violated_postponed",
    "Verif.Vhdl.C87_violated_guarded",
    "Verif.Vhdl.C87_violated_block",
    "Verif.Vhdl.C87_violated_selected_others",
    "Verif.Vhdl.C87_violated_case_generate",
    "Verif.Vhdl.C87_violated_alternative_label"
   ],
   "note": "Holds for what okConc accepts."
  },
  {
   "property": "C88",
   "status": "partial",
   "theorems": [
    "Verif.Vhdl.C88_instance",
    "Verif.Vhdl.C88_map_lengths",
    "Verif.Vhdl.C88_violated_kind"
   ],
   "note": "Label, unit name and maps are right; the kind of the unit and the architecture are lost. Missing: maps with associations okMap excludes (C88_map_lengths covers their number)."
  },
  {
   "property": "C89",
   "status": "partial",
   "theorems": [
    "Verif.Vhdl.C89_file_meaning_partial",
    "Verif.Vhdl.C89_file_injective_partial",
    "Verif.Vhdl.C89_file_append",
    "Verif.Vhdl.C89_violated_dropped",
    "Verif.Vhdl.C89_violated_entity_statements",
    "Verif.Vhdl.C89_violated_package_generics"
   ],
   "note": "Configurations, package instantiations, contexts, context references, statements of entities and generics of packages are dropped."
  },
  {
   "property": "C90",
   "status": "proved",
   "theorems": [
    "Verif.Vhdl.C90_hierarchy_only",
    "Verif.Vhdl.C90_no_details",
    "Verif.Vhdl.C90_architecture"
   ],
   "note": ""
  },
  {
   "property": "C91",
   "status": "partial",
   "theorems": [
    "Verif.C91_success_iff",
    "Verif.C91_context_success_iff",
    "Verif.C91_vhdl_file_iff",
    "Verif.C91_vhdl_hierarchy",
    "Verif.C91_sv_source_partial",
    "Verif.C91_sv_statement_partial",
    "Verif.C91_violated_selected",
    "Verif.C91_violated_do_while",
    "Verif.C91_violated_extern",
    "Verif.C91_violated_empty_concat"
   ],
   "note": "Exact for objects, contexts and VHDL files. Every SystemVerilog source without an empty concatenation, without do-while and without an extern module whose first port has no direction reaches Python. Unlabelled selected signal assignments in VHDL processes, do-while statements, such extern modules and empty concatenations do not. Missing: the sources with an empty concatenation that reach Python nevertheless."
  },
  {
   "property": "C92",
   "status": "partial",
   "theorems": [
    "Verif.C92_read",
    "Verif.C92_same_iff",
    "Verif.C92_context_read",
    "Verif.C92_vhdl_injective_partial",
    "Verif.C92_violated_open",
    "Verif.C92_violated_label",
    "Verif.C92_violated_null"
   ],
   "note": "Exact for objects (erase says what is lost). open and null, labels of expression statements and null defaults are lost."
  },
  {
   "property": "C93",
   "status": "partial",
   "theorems": [
    "Verif.PyRef.C93_same_outcome",
    "Verif.PyRef.C93_expression",
    "Verif.PyRef.C93_definition",
    "Verif.PyRef.C93_object_partial",
    "Verif.PyRef.C93_violated_context",
    "Verif.PyRef.C93_violated_statement",
    "Verif.PyRef.C93_violated_unit",
    "Verif.PyRef.C93_violated_enum"
   ],
   "note": "Exact number of leaked references for all objects; nothing leaks for expressions and definitions without type definitions. Every context, every statement, every list attribute and every enumerator leaks."
  },
  {
   "property": "C94",
   "status": "partial",
   "theorems": [
    "Verif.PyRef.C94_clean_partial",
    "Verif.PyRef.C94_expression",
    "Verif.PyRef.C94_earlier_partial",
    "Verif.PyRef.C94_violated_context",
    "Verif.PyRef.C94_violated_process",
    "Verif.PyRef.C94_violated_assign",
    "Verif.PyRef.C94_violated_empty_concat"
   ],
   "note": "Holds for expressions, definitions and some statements, and for objects made earlier. Violated by every failing context, by sensitivity lists and by assignments."
  },
  {
   "property": "C95",
   "status": "partial",
   "theorems": [
    "Verif.C95_structure_partial",
    "Verif.C95_violated_witness"
   ],
   "note": "Holds for the sources ok accepts (Spec/PpSource.lean says at each definition what is not covered); false for some others."
  },
  {
   "property": "C96",
   "status": "partial",
   "theorems": [
    "Verif.C96_macro_line_partial",
    "Verif.C96_violated_line_comment",
    "Verif.C96_violated_crlf",
    "Verif.C96_violated_block_comment"
   ],
   "note": "Holds for all definitions in covered sources whose strings are not continued on the next line. False for line comments, CR LF behind a backslash, block comments of several lines."
  },
  {
   "property": "C97",
   "status": "partial",
   "theorems": [
    "Verif.C97_same_directives_partial",
    "Verif.C97_violated_body",
    "Verif.C97_violated_argument",
    "Verif.C97_violated_directive"
   ],
   "note": "Holds for comments, code and strings between directives of covered sources. False in macro texts, arguments and on directive lines."
  },
  {
   "property": "C98",
   "status": "proved",
   "theorems": [
    "Verif.C98_mode_stack",
    "Verif.C98_depth"
   ],
   "note": ""
  },
  {
   "property": "C99",
   "status": "proved",
   "theorems": [
    "Verif.C99_nested",
    "Verif.C99_unopened"
   ],
   "note": ""
  },
  {
   "property": "C100",
   "status": "partial",
   "theorems": [
    "Verif.C100_stray_partial",
    "Verif.C100_violated_witness"
   ],
   "note": "Holds behind every covered source for a back-tick in front of any character but name starts, back-tick, quote, backslash and slash. A back-tick at the end of the text is dropped."
  },
  {
   "property": "C101",
   "status": "partial",
   "theorems": [
    "Verif.C101_semantics_str_partial",
    "Verif.C101_semantics_file_partial",
    "Verif.C101_violated_witness"
   ],
   "note": "Holds for everything covered by Items.ok and Sem. Not covered: redefinition, elsif behind ifndef, includes in macro texts, formal arguments in front of brackets, calls of __LINE__ and __FILE__, macro texts which expand to texts with back-ticks. Several of these are false, see C06, C13, C15, C19."
  },
  {
   "property": "C102",
   "status": "partial",
   "theorems": [
    "Verif.Vhdl.C102_text_meaning_partial",
    "Verif.Vhdl.C102_one_reading",
    "Verif.Vhdl.C102_violated_nested_call"
   ],
   "note": "From tokens to the AST. The parse is right for all expressions; the AST for those covered by C61 (LExpr.Ok). Not covered: allocators, external names, signatures, type conversions with subtype indications, the lexer. A call is INDEX or CALL depending on the place."
  },
  {
   "property": "C103",
   "status": "partial",
   "theorems": [
    "Verif.Vhdl.C103_parentheses_partial"
   ],
   "note": "For the expressions covered by C61 (LExpr.Ok)."
  },
  {
   "property": "C104",
   "status": "partial",
   "theorems": [
    "Verif.Vhdl.C104_brackets_partial",
    "Verif.Vhdl.C104_violated_relations",
    "Verif.Vhdl.C104_violated_attribute"
   ],
   "note": "Only the matching of brackets holds; chains of relations, mixed logical operators, signs behind multiplying operators and reserved words as attributes are accepted."
  },
  {
   "property": "C105",
   "status": "partial",
   "theorems": [
    "Verif.Vhdl.C105_elements_partial",
    "Verif.Vhdl.C105_one_division",
    "Verif.Vhdl.C105_violated_parenthesis",
    "Verif.Vhdl.C105_violated_attribute",
    "Verif.Vhdl.C105_violated_separator",
    "Verif.Vhdl.C105_violated_letter",
    "Verif.Vhdl.C105_violated_line_end",
    "Verif.Vhdl.C105_violated_extended"
   ],
   "note": "Holds for the texts of Limits.supported. False for parentheses as character literals with an apostrophe two characters later, attributes with one letter between apostrophes, form feed, vertical tabulation and no-break space as separators, letters outside of ASCII in identifiers, lone carriage returns behind comments, quotation marks in extended identifiers."
  },
  {
   "property": "C106",
   "status": "partial",
   "theorems": [
    "Verif.Vhdl.C106_layout_partial"
   ],
   "note": "For the texts of Limits.supported (see C105)."
  },
  {
   "property": "C107",
   "status": "partial",
   "theorems": [
    "Verif.Vhdl.C107_tokens_partial",
    "Verif.Vhdl.C107_violated_word",
    "Verif.Vhdl.C107_violated_character"
   ],
   "note": "For texts of the characters of ISO 8859-1 but for the letter A with ring. The reserved words of PSL are identifiers, single characters that are no element are tokens, numbers and words need no separation."
  },
  {
   "property": "C108",
   "status": "partial",
   "theorems": [
    "Verif.Vhdl.C108_source_meaning_partial"
   ],
   "note": "For the texts of Limits.supported (C105) and the expressions of C102."
  },
  {
   "property": "C109",
   "status": "partial",
   "theorems": [
    "Verif.Sv.C109_text_meaning_partial",
    "Verif.Sv.C109_one_reading",
    "Verif.Sv.C109_violated_triple_and"
   ],
   "note": "From tokens to the AST. The parse is right for all expressions of SExp; the AST for those covered by C63 (SExp.Ok). Not covered: attributes, inside, &&&, increment, tagged, streaming, min:typ:max, casts to keyword types, type arguments, class parameters, this, randomize, array methods, the lexer. a &&& b ? c : d is read as a &&& (b ? c : d)."
  },
  {
   "property": "C110",
   "status": "partial",
   "theorems": [
    "Verif.Sv.C110_parentheses_partial"
   ],
   "note": "For the expressions covered by C109 and C63 (SExp.Ok)."
  },
  {
   "property": "C111",
   "status": "partial",
   "theorems": [
    "Verif.Sv.C111_brackets_partial"
   ],
   "note": "Only that brackets are closed as often as opened (and never more), and the same for ? and : outside of brackets; not for texts with randomize, enum, struct, union, virtual, this, type or #."
  },
  {
   "property": "C112",
   "status": "partial",
   "theorems": [
    "Verif.Sv.C112_elements_partial",
    "Verif.Sv.C112_one_division",
    "Verif.Sv.C112_violated_edge",
    "Verif.Sv.C112_violated_escaped_end",
    "Verif.Sv.C112_violated_operator",
    "Verif.Sv.C112_violated_form_feed",
    "Verif.Sv.C112_violated_escape",
    "Verif.Sv.C112_violated_base"
   ],
   "note": "Holds for the texts of Limits.supported, in all versions. False for edge directly in front of a bracket, escaped identifiers at the end of the text, operators of later versions in old versions, form feeds in tables, other escape sequences in strings, white space or a name with s behind an apostrophe, and the words of C114."
  },
  {
   "property": "C113",
   "status": "partial",
   "theorems": [
    "Verif.Sv.C113_layout_partial"
   ],
   "note": "For the texts of Limits.supported (see C112)."
  },
  {
   "property": "C114",
   "status": "partial",
   "theorems": [
    "Verif.Sv.C114_keywords_partial",
    "Verif.Sv.C114_violated_library",
    "Verif.Sv.C114_violated_config"
   ],
   "note": "For all words but the ten of disagree: incdir, include, library are names in Verilog-2001 and Verilog-2005; the other words of configurations are keywords in Verilog-2001 without configurations."
  },
  {
   "property": "C115",
   "status": "partial",
   "theorems": [
    "Verif.Sv.C115_tokens_partial",
    "Verif.Sv.C115_violated_backslash"
   ],
   "note": "For all texts and versions; the tokens of Deviation are no lexical elements."
  },
  {
   "property": "C116",
   "status": "partial",
   "theorems": [
    "Verif.Sv.C116_source_meaning_partial"
   ],
   "note": "For the texts of Limits.supported (C112) and the expressions of C109."
  },
  {
   "property": "C117",
   "status": "partial",
   "theorems": [
    "Verif.Position.C117_vhdl_positions_partial",
    "Verif.Position.C117_sv_positions_partial",
    "Verif.Position.C117_one_place",
    "Verif.Position.C117_violated_multiline",
    "Verif.Position.C117_violated_terminal",
    "Verif.Position.C117_violated_empty",
    "Verif.Position.C117_violated_preprocessor"
   ],
   "note": "For objects made from a rule which has read tokens, the last one without a line feed; SystemVerilog positions are places behind the preprocessor. Which rule an object is made from is not modelled."
  },
  {
   "property": "C118",
   "status": "partial",
   "theorems": [
    "Verif.Vhdl.C118_statements_meaning_partial",
    "Verif.Vhdl.C118_one_reading"
   ],
   "note": "From tokens to the AST. The parse is right for all statements of Spec/VhdlSeq.lean; the AST for those covered by C83 (seqsOk). Expressions as in C102."
  },
  {
   "property": "C119",
   "status": "partial",
   "theorems": [
    "Verif.Vhdl.C119_source_statements_partial"
   ],
   "note": "For the texts of Limits.supported (C105) and the statements of C118 and C83."
  },
  {
   "property": "C120",
   "status": "partial",
   "theorems": [
    "Verif.Vhdl.C120_file_parse_partial",
    "Verif.Vhdl.C120_one_reading_partial",
    "Verif.Vhdl.C120_violated_labelled_call",
    "Verif.Vhdl.C120_violated_architecture",
    "Verif.Vhdl.C120_violated_generate_end",
    "Verif.Vhdl.C120_violated_alternative_begin"
   ],
   "note": "For the constructs of Spec/VhdlDesign.lean; calls with a label, and generate bodies with end where the grammar has none (LLib.Reg), are excluded; the violations are real."
  },
  {
   "property": "C121",
   "status": "partial",
   "theorems": [
    "Verif.Vhdl.C121_file_meaning_partial"
   ],
   "note": "For the files of C120 whose constructs the AST keeps (LDesign.Ok: C61, C83, C87, C88, C89)."
  },
  {
   "property": "C122",
   "status": "partial",
   "theorems": [
    "Verif.Vhdl.C122_source_file_partial"
   ],
   "note": "For the texts of Limits.supported (C105) and the files of C121."
  },
  {
   "property": "C123",
   "status": "partial",
   "theorems": [
    "Verif.Vhdl.C123_parse_partial",
    "Verif.Vhdl.C123_parse_str_partial"
   ],
   "note": "For the files of C122, encoded in UTF-8, flat module lists (hierarchyOnly off), all texts decodable by Python; the attributes named by erase (C92) are not compared."
  },
  {
   "property": "C124",
   "status": "partial",
   "theorems": [
    "Verif.Sv.C124_statement_text_partial",
    "Verif.Sv.C124_one_reading",
    "Verif.Sv.C124_dangling_else_partial"
   ],
   "note": "From tokens to the AST. The parse is right for all statements of SStm; the AST for those C68 covers (SStm.Ok). Not covered: declarations in blocks, attributes, new, unique if, &&& and matches, case inside, foreach, randcase, disable, wait, event triggers, assertions, procedural continuous assignments, cycle delays, iff, members of structures as targets, @name followed by #, events that begin with a parenthesis; the lexer (C125)."
  },
  {
   "property": "C125",
   "status": "partial",
   "theorems": [
    "Verif.Sv.C125_source_statement_partial"
   ],
   "note": "For the texts of Limits.supported (C112) and the statements of C124."
  },
  {
   "property": "C126",
   "status": "partial",
   "theorems": [
    "Verif.Sv.C126_item_text_partial",
    "Verif.Sv.C126_one_reading",
    "Verif.Sv.C126_violated_instance_taken_for_primitive"
   ],
   "note": "From tokens to the AST. Disproved for instances with one parameter by position and two or more ports by position: they are taken for instances of primitives and left out. Otherwise the parse is right for all items of SItem; the AST for those C76 covers (SItem.Ok). Not covered: variables of types other than vectors and numbers, signed and unsigned types, nets with strengths, delays, dimensions or types of the user, declarations of parameters which are not local, types, tasks, functions, classes; gates, assertions, attributes, labels in front of blocks, strengths and delays of assignments, arrays of instances, connections .i; the lexer (C127)."
  },
  {
   "property": "C127",
   "status": "partial",
   "theorems": [
    "Verif.Sv.C127_source_item_partial"
   ],
   "note": "For the texts of Limits.supported (C112) and the items of C126."
  },
  {
   "property": "C128",
   "status": "partial",
   "theorems": [
    "Verif.Sv.C128_source_text_partial",
    "Verif.Sv.C128_one_reading"
   ],
   "note": "From tokens to the AST. For source texts of modules with parameters in the header and the body (with keyword and value, without type or with a vector, integer or real type) and ports in ANSI style or in the old style of the types bit, logic, reg, the integer and real types, the net types and ranges and with the items of C126; the AST for those C74 covers (SMod.Ok). Not covered: other parameters, other types of ports, values and dimensions of ports, modules in modules, attributes, imports, lifetimes, timeunits, other descriptions, the declarations not covered in C126; the lexer (C129)."
  },
  {
   "property": "C129",
   "status": "partial",
   "theorems": [
    "Verif.Sv.C129_file_partial"
   ],
   "note": "For the texts of Limits.supported (C112) and the modules of C128."
  }
 ]
}