{
 "claims": [
  {
   "property": "C01",
   "status": "proved",
   "theorems": [
    "RuC.Vector.vector_refines_sequence",
    "RuC.Vector.sequence_refusals_need_cause",
    "RuC.Vector.vector_increase_wraps"
   ],
   "note": "Refinement of every history to a plain sequence. Requests of 2^60 cells or more are excluded (byte count wraps; witness vector_increase_wraps)."
  },
  {
   "property": "C02",
   "status": "proved",
   "theorems": [
    "RuC.Vector.vector_failure_changes_nothing",
    "RuC.Vector.vector_refusal_is_reported",
    "RuC.Vector.vector_refines_sequence"
   ],
   "note": "Allocator answers are an arbitrary oracle per call."
  },
  {
   "property": "C03",
   "status": "partial",
   "theorems": [
    "RuC.Vector.vector_access_in_bounds",
    "RuC.Vector.vector_int64_access_in_bounds_partial",
    "RuC.Vector.vector_get_int64_leaves_vector",
    "RuC.Vector.stack_peek_int64_empty_leaves_stack"
   ],
   "note": "Proved for one-cell accessors at every index. False for the 64-bit/double accessors at index SIZE_MAX (guard wraps); the negation is proved, including stack_peek_int64 on an empty stack."
  },
  {
   "property": "C04",
   "status": "proved",
   "theorems": [
    "RuC.Vector.stack_refines_lifo",
    "RuC.Vector.lifo_pop_after_push"
   ],
   "note": "One-cell stack operations; every history, every capacity below 2^60."
  },
  {
   "property": "C05",
   "status": "proved",
   "theorems": [
    "RuC.Hash.hash_refines_map",
    "RuC.Hash.map_answers_determined"
   ],
   "note": "Every history on keys other than the reserved ITEM_MAX, below 2^60 cells, with allocation succeeding. The vector calls inside are taken by their sequence meaning (C01)."
  },
  {
   "property": "C06",
   "status": "proved",
   "theorems": [
    "RuC.Hash.hash_refines_map",
    "RuC.Hash.hash_index_stable"
   ],
   "note": "Index stability and disjointness of live records, for every history."
  },
  {
   "property": "C07",
   "status": "proved",
   "theorems": [
    "RuC.Map.map_refines_table",
    "RuC.Map.map_interns",
    "RuC.Map.table_answers_determined",
    "RuC.Map.map_ill_formed_key_overreads",
    "RuC.Map.map_unwritable_keys_collide"
   ],
   "note": "Any history of map calls, any allocator answers, keys given as C string, char32_t string or input; key texts made of code points utf8_to_string writes correctly (outside it two witnesses show the code fails). Size below 2^60."
  },
  {
   "property": "C08",
   "status": "proved",
   "theorems": [
    "RuC.Map.map_refines_table",
    "RuC.Map.map_last_value"
   ],
   "note": "Any history, any allocator answers; same key domain as C07."
  },
  {
   "property": "C09",
   "status": "proved",
   "theorems": [
    "RuC.Strings.strings_refine",
    "RuC.Strings.srun_determined",
    "RuC.Strings.strings_get_after_add",
    "RuC.Strings.strings_length_wrong_after_refusal",
    "RuC.Strings.strings_empty_vector_registered"
   ],
   "note": "Any allocator, any history; when nothing is refused all answers including lengths are determined (srun_determined). After a refused allocation strings_get_length can be wrong: strings_length_wrong_after_refusal. Empty vectors excluded: strings_empty_vector_registered."
  },
  {
   "property": "C10",
   "status": "proved",
   "theorems": [
    "RuC.Tree.tree_refines",
    "RuC.Tree.tree_reads",
    "RuC.Tree.tree_determined",
    "RuC.Tree.tree_add_child",
    "RuC.Tree.tree_add_arg_misplaced"
   ],
   "note": "Histories of all modelled calls (Session). Allocation is granted. Adding an argument to a node that is not the last made is outside the statement: tree_add_arg_misplaced shows it does not read back."
  },
  {
   "property": "C11",
   "status": "proved",
   "theorems": [
    "RuC.Tree.tree_preorder",
    "RuC.Tree.tree_next",
    "RuC.Tree.tree_next_of_empty_root"
   ],
   "note": "A childless root is outside the statement: tree_next_of_empty_root shows that a node is reported."
  },
  {
   "property": "C12",
   "status": "proved",
   "theorems": [
    "RuC.Tree.tree_refines",
    "RuC.Tree.tree_reads",
    "RuC.Tree.tree_insert",
    "RuC.Tree.tree_swap",
    "RuC.Tree.tree_remove",
    "RuC.Tree.tree_set_child",
    "RuC.Tree.tree_swap_ancestor"
   ],
   "note": "Exchanging a node with one of its descendants is outside the statement: tree_swap_ancestor."
  },
  {
   "property": "C13",
   "status": "partial",
   "theorems": [
    "RuC.Utf8.utf8_to_string_exact",
    "RuC.Utf8.utf8_convert_encode",
    "RuC.Utf8.utf8_round_trip_partial",
    "RuC.Utf8.utf8_round_trip_fails",
    "RuC.Utf8.utf8_to_string_refuses"
   ],
   "note": "Writing is UTF-8 exactly for the code points in Good (utf8_to_string_exact is an iff); reading every encoding is proved for all 21-bit values. False for U+0800..U+0FFF and U+10000..U+3FFFF (witness utf8_round_trip_fails)."
  },
  {
   "property": "C14",
   "status": "partial",
   "theorems": [
    "RuC.Utf8.utf8_size_exact",
    "RuC.Utf8.utf8_symbol_size_exact",
    "RuC.Utf8.utf8_lengths_agree_partial",
    "RuC.Utf8.utf8_lengths_disagree",
    "RuC.Utf8.utf8_to_first_byte_exact"
   ],
   "note": "utf8_size and utf8_symbol_size are the length of the encoding for all 21-bit values; utf8_to_string writes one octet too few exactly outside Good (utf8_lengths_disagree)."
  },
  {
   "property": "C15",
   "status": "partial",
   "theorems": [
    "RuC.Utf8.cp866_lossless",
    "RuC.Utf8.cp1251_lossless_iff",
    "RuC.Utf8.codepages_as_published"
   ],
   "note": "cp866: every string. cp1251: exactly the strings without octet 0x98, which has no character in the code page; for those the conversion is lossy."
  },
  {
   "property": "C16",
   "status": "partial",
   "theorems": [
    "RuC.Item.item_int64_round_trip",
    "RuC.Item.item_int64_round_trip_64_partial",
    "RuC.Item.item_store_int64_undefined_shift",
    "RuC.Item.item_uint64_cell_out_of_range",
    "RuC.Item.item_double_round_trip",
    "RuC.Item.item_double_nan_lost"
   ],
   "note": "Round trip proved for 8/16/32-bit targets. For 64-bit targets the store shifts by 64 (undefined behaviour; witness item_store_int64_undefined_shift), and the round trip is proved only with that final shift treated as harmless. Cells of uint64 targets can lie outside the reported range (witness)."
  },
  {
   "property": "C17",
   "status": "proved",
   "theorems": [
    "RuC.Item.item_check_var_exact",
    "RuC.Item.item_get_status_exact"
   ],
   "note": "Every value, every target and every list of flags."
  },
  {
   "property": "C18",
   "status": "partial",
   "theorems": [
    "RuC.Workspace.unix_path_denotes_partial",
    "RuC.Workspace.unix_path_undefined",
    "RuC.Workspace.unix_path_wrong_node",
    "RuC.Workspace.unix_path_not_same_node",
    "RuC.Workspace.unix_path_not_fixed",
    "RuC.Workspace.unix_path_overflow"
   ],
   "note": "Proved for every path that is shorter than MAX_ARG_SIZE, has no two separators in a row, does not climb above the root (if absolute) and, when it ends in a separator, does not lead back to its start. Missing: the other paths, for which the claim is false in the code (unix_path_wrong_node, unix_path_not_same_node, unix_path_not_fixed, unix_path_undefined, unix_path_overflow)."
  },
  {
   "property": "C19",
   "status": "proved",
   "theorems": [
    "RuC.Workspace.workspace_lists",
    "RuC.Workspace.workspace_error",
    "RuC.Workspace.workspace_refuses",
    "RuC.Workspace.parse_args_reads",
    "RuC.Workspace.reads_unique",
    "RuC.Workspace.firsts_once"
   ],
   "note": "Histories of calls and command lines; string lists at the level of their meaning (C09), access() is an oracle, empty flags are refused by the code."
  },
  {
   "property": "C20",
   "status": "proved",
   "theorems": [
    "RuC.Io.print_concatenates",
    "RuC.Io.print_char",
    "RuC.Io.set_buffer_undefined"
   ],
   "note": "Formatting (vsnprintf) is the C library's; a print is the text it formats to. Allocator answers are an oracle; sizes bounded by 2^62, one text by INT_MAX. out_set_buffer(SIZE_MAX) is undefined (set_buffer_undefined)."
  },
  {
   "property": "C21",
   "status": "proved",
   "theorems": [
    "RuC.Io.scan_unscan",
    "RuC.Io.scan_all",
    "RuC.Io.scan_identifier",
    "RuC.Io.print_then_scan",
    "RuC.Io.scan_truncated"
   ],
   "note": "Buffers; texts that are valid UTF-8 (scan_truncated shows what happens to a text cut inside a character)."
  },
  {
   "property": "C22",
   "status": "proved",
   "theorems": [
    "RuC.Lexer.punctuator_longest"
   ],
   "note": "Longest match over all 45 punctuators; comments and a period before a digit are excluded as the property says."
  },
  {
   "property": "C23",
   "status": "partial",
   "theorems": [
    "RuC.Lexer.lex_progress",
    "RuC.Lexer.lexing_terminates_partial",
    "RuC.Lexer.lexing_never_hangs_partial",
    "RuC.Lexer.unclosed_string_never",
    "RuC.Lexer.long_exponent_undefined"
   ],
   "note": "Progress is proved for every text. Termination is proved for texts that end with a line end (not escaped) and have no more than 18 digits in a row; missing: a string literal left open at the end of the text makes the lexer loop for ever (unclosed_string_never), an exponent of 2^63 or more overflows (long_exponent_undefined)."
  },
  {
   "property": "C24",
   "status": "proved",
   "theorems": [
    "RuC.Lexer.decimal_literal",
    "RuC.Lexer.prefixed_literal",
    "RuC.Lexer.decimal_literal_exact",
    "RuC.Lexer.prefixed_literal_exact",
    "RuC.Lexer.binary_literal_float"
   ],
   "note": "Proved for decimal, octal, hexadecimal (and 0d) literals below 2^63, with the exact bound at which each base turns into floating (prefixed_literal_exact, decimal_literal_exact); binary literals of 2^61 and more turn into floating ones (binary_literal_float)."
  },
  {
   "property": "C25",
   "status": "partial",
   "theorems": [
    "RuC.Lexer.line_comment_skipped",
    "RuC.Lexer.block_comment_skipped_partial",
    "RuC.Lexer.block_comment_missed",
    "RuC.Lexer.empty_comment_missed",
    "RuC.Lexer.slash_star_slash_closes",
    "RuC.Lexer.blanks_skipped"
   ],
   "note": "Line comments proved. Block comments proved when the opening asterisk and the body end with an even number of asterisks and the body does not start with a slash; in the other cases the code goes wrong, which is proved too (block_comment_missed, empty_comment_missed, slash_star_slash_closes)."
  },
  {
   "property": "C26",
   "status": "proved",
   "theorems": [
    "RuC.Expr.Props.operator_sequence",
    "RuC.Expr.Props.expression_complete",
    "RuC.Expr.Props.expression_sound",
    "RuC.Expr.Props.expression_unique",
    "RuC.Expr.Props.parsing_ends",
    "RuC.Expr.Props.assignment_complete",
    "RuC.Expr.Props.assignment_sound",
    "RuC.Expr.Props.constant_complete",
    "RuC.Expr.Props.constant_sound",
    "RuC.Expr.Props.initializer_complete",
    "RuC.Expr.Props.initializer_sound"
   ],
   "note": "Whole expression parser (primary, postfix, unary, binary, conditional, assignment, comma, initializers) against a separate grammar: sound, complete, unambiguous, always ends; plus the operator-sequence form. Syntax errors end the model's run: what is parsed after the first syntax error is not covered."
  },
  {
   "property": "C27",
   "status": "partial",
   "theorems": [
    "RuC.Skip.Props.skip_stops",
    "RuC.Skip.Props.skip_brackets_partial",
    "RuC.Skip.Props.nested_brackets_stop_early",
    "RuC.Skip.Props.own_bracket_stops",
    "RuC.Skip.Props.comma_never_stops"
   ],
   "note": "Termination, suffix and stopping at a requested token are proved for all inputs. Not being nested is proved only when brackets are not closed by a requested token and do not stand directly inside their own kind; the code violates it otherwise (witness theorems)."
  },
  {
   "property": "C28",
   "status": "proved",
   "theorems": [
    "RuC.Stmt.Props.jumps_placed",
    "RuC.Stmt.Props.body_placed"
   ],
   "note": "On the model of parse_statement with the parser's loop and switch flags; what a name stands for does not change inside the statement, definitions of structures, enumerations and typedef inside bodies are not modelled."
  },
  {
   "property": "C29",
   "status": "partial",
   "theorems": [
    "RuC.Types.Props.types_are_interned_partial",
    "RuC.Types.Props.build_keeps_types_partial",
    "RuC.Types.Props.const_of_builtin",
    "RuC.Types.Props.const_of_enums",
    "RuC.Types.Props.init_is_built"
   ],
   "note": "Histories where const is applied to an enumeration or to a built-in type other than int are excluded: there the code gives two different const types the same index (witness theorems). Enum fields are taken to be added at once."
  },
  {
   "property": "C30",
   "status": "partial",
   "theorems": [
    "RuC.Types.Props.types_read_back_partial",
    "RuC.Types.Props.const_of_builtin_size",
    "RuC.Types.Props.sample_run"
   ],
   "note": "Same exclusion as C29: const char built after const float reads as const float (witness const_of_builtin_size)."
  },
  {
   "property": "C31",
   "status": "proved",
   "theorems": [
    "RuC.Scope.Props.names_denote_innermost",
    "RuC.Scope.Props.block_exit_restores",
    "RuC.Scope.Props.repeated_exactly_in_same_scope",
    "RuC.Scope.Props.block_exit_defined",
    "RuC.Scope.Props.refused_declaration_spoils_exit",
    "RuC.Scope.Props.sample_start"
   ],
   "note": "Label declarations (kind 1, never made by the parser) and keywords as names are excluded; functions are declared outside functions only, as the parser does. A refused (repeated) declaration leaves an unwritten record that closing the block reads: witness refused_declaration_spoils_exit."
  },
  {
   "property": "C32",
   "status": "proved",
   "theorems": [
    "RuC.Codegen.Props.C32_slots_apart",
    "RuC.Codegen.Props.C32_globals_counted",
    "RuC.Codegen.Props.C32_cells_stay"
   ],
   "note": "Layout of globals, parameters and block variables (displacements_add, blocks, for, functions). Displacements are unbounded integers in the model: sizes large enough to overflow item_t are outside it."
  },
  {
   "property": "C33",
   "status": "partial",
   "theorems": [
    "RuC.Builder.Props.folded_binary_value_partial",
    "RuC.Builder.Props.integers_are_folded",
    "RuC.Builder.Props.folded_unary_value",
    "RuC.Builder.Props.null_operand_folded"
   ],
   "note": "Proved for binary and unary operators on integer, boolean, character and enumerator literals, in full for two integers or enumerators. Missing: the literal NULL as right operand, where the code violates the property (null_operand_folded proves it). Floating literals are outside the statement."
  },
  {
   "property": "C34",
   "status": "proved",
   "theorems": [
    "RuC.Builder.Props.binary_types",
    "RuC.Checks.Props.assignment_types",
    "RuC.Builder.Props.unary_types",
    "RuC.Builder.Props.address_type",
    "RuC.Builder.Props.ternary_types",
    "RuC.Builder.Props.histories_have_trees",
    "RuC.Builder.Props.const_increment"
   ],
   "note": "All unary, binary and conditional operators and assignments, also of lists of initialisers. histories_have_trees shows that the hypotheses on the table hold after any history of requests for types. const_increment records that incrementing a const variable is accepted, which the statement exempts."
  },
  {
   "property": "C35",
   "status": "proved",
   "theorems": [
    "RuC.Codegen.Props.C35_no_link_left",
    "RuC.Codegen.Props.C35_while",
    "RuC.Codegen.Props.C35_do",
    "RuC.Codegen.Props.C35_for",
    "RuC.Codegen.Props.C35_if",
    "RuC.Codegen.Props.C35_ifElse",
    "RuC.Codegen.Props.C35_switch",
    "RuC.Codegen.Props.C35_case_next",
    "RuC.Codegen.Props.C35_case_label",
    "RuC.Codegen.Props.C35_ternary",
    "RuC.Codegen.Props.C35_logical",
    "RuC.Codegen.Props.C35_link_changed"
   ],
   "note": "The encoder with its back-patch chains is proved equal to the code written down with destinations computed at once. Precondition Ready/Calm (always met below 9000 cells); C35_link_changed is the witness that without it a call-chain link is corrupted."
  },
  {
   "property": "C36",
   "status": "proved",
   "theorems": [
    "RuC.Codegen.Props.C36_unit",
    "RuC.Codegen.Props.C36_calls",
    "RuC.Codegen.Props.C36_passed_before_definition"
   ],
   "note": "Whole units: the memory equals the reference code with every call resolved to the number of the definition, and the function table holds the addresses. C36_passed_before_definition is the witness for the stated precondition."
  },
  {
   "property": "C37",
   "status": "partial",
   "theorems": [
    "RuC.Machine.C37_unit_partial",
    "RuC.Machine.C37_goes_on_partial",
    "RuC.Machine.C37_forever_partial",
    "RuC.Machine.C37_ends_partial",
    "RuC.Machine.C37_one_result",
    "RuC.Machine.C37_or_witness",
    "RuC.Machine.C37_comma_witness",
    "RuC.Machine.C37_fall_through_witness",
    "RuC.Machine.C37_default_first_witness",
    "RuC.Machine.C37_switch_leaves_witness"
   ],
   "note": "Proved for whole units (globals, functions with recursion, all statements, integer expressions, print and printf) against an assumed machine, since the machine is not in the repository. Missing: floating, structures, arrays, pointers, library functions. Left out, with witnesses, is what the code gets wrong: a left operand of || other than 0 and 1, a left operand of a comma that leaves its value, switches that fall through to the next label or have labels behind their default."
  },
  {
   "property": "C38",
   "status": "partial",
   "theorems": [
    "RuC.Instr.Props.codes_distinct",
    "RuC.Instr.Props.versions_distinct",
    "RuC.Instr.Props.binary_code",
    "RuC.Instr.Props.binary_injective",
    "RuC.Instr.Props.unary_code",
    "RuC.Instr.Props.unary_injective",
    "RuC.Instr.Props.address_version",
    "RuC.Instr.Props.floating_version",
    "RuC.Instr.Props.void_version_partial",
    "RuC.Instr.Props.void_version_missed"
   ],
   "note": "Distinct codes, operator codes, address and floating versions are proved for the whole header. The void versions are right except for the direct %= <<= >>= &= ^= |=, which instruction_to_void_ver leaves in the version that leaves a value (void_version_missed)."
  },
  {
   "property": "C39",
   "status": "partial",
   "theorems": [
    "RuC.Machine.C39_balanced_partial",
    "RuC.Machine.C39_pure_witness",
    "RuC.Machine.C39_rem_assign_witness",
    "RuC.Machine.C39_ternary_witness",
    "RuC.Machine.C39_and_witness",
    "RuC.Machine.C39_call_witness",
    "RuC.Machine.C39_unbounded_witness"
   ],
   "note": "The code breaks the property: proved for assignments = += -= *= /=, increments, prints, variables, calls without value, and commas and casts of these; witnesses show a value left by pure expressions, %= and its like, ternaries, && and calls with a value, and that a loop makes the stack as large as one likes."
  },
  {
   "property": "C40",
   "status": "partial",
   "theorems": [
    "RuC.Computer.Props.C40_value_partial",
    "RuC.Computer.Props.C40_unique",
    "RuC.Computer.Props.C40_undefined",
    "RuC.Computer.Props.C40_accepted",
    "RuC.Computer.Props.C40_not_refused_partial",
    "RuC.Computer.Props.C40_not_wrong",
    "RuC.Computer.Props.C40_minus_paren",
    "RuC.Computer.Props.C40_minus_twice",
    "RuC.Computer.Props.C40_minus_sum",
    "RuC.Computer.Props.C40_no_short_circuit"
   ],
   "note": "Every expression of the C grammar without '!' and without a prefix operator directly before a parenthesis, all of whose parts have values, gets its C value (precedence, left associativity, parentheses, unary operators, 64-bit arithmetic); undefined parts make the preprocessor itself undefined; only expressions of the grammar are accepted. Not provable for the rest: witnesses show '!' computed upside down, '-(1)' giving ITEM_MAX, '-(-(1))' refused, '-(1)+2' overflowing and '0 && 1/0' dividing by zero. Scanning of the text into tokens is not modelled."
  },
  {
   "property": "C41",
   "status": "proved",
   "theorems": [
    "RuC.Storage.C41_storage_is_a_map",
    "RuC.Storage.C41_witness_empty_value",
    "RuC.Storage.C41_witness_undef_unknown"
   ],
   "note": "Histories on the three containers (map, hash table, strings), memory granted, texts together below 4 GB. The statement was given its preconditions because the code violates it outside them: both violating histories are proved as witnesses (empty redefinition keeps the old value; #undef of an unknown name can disable #define)."
  },
  {
   "property": "C42",
   "status": "proved",
   "theorems": [
    "RuC.Cond.C42_first_true_branch"
   ],
   "note": "Line level: scanning inside a line, and what single lines do, are parameters of the model (any functions of the state)."
  },
  {
   "property": "C43",
   "status": "proved",
   "theorems": [
    "RuC.Cond.C43_loop",
    "RuC.Cond.C43_terminates"
   ],
   "note": "One text; single lines (including an #include) are assumed to end. The body runs 32769 times before the message."
  },
  {
   "property": "C44",
   "status": "proved",
   "theorems": [
    "RuC.Linker.C44_once",
    "RuC.Linker.C44_inserts",
    "RuC.Linker.C44_unknown",
    "RuC.Linker.C44_depth",
    "RuC.Linker.C44_run_fails",
    "RuC.Linker.C44_source_twice"
   ],
   "note": "Over whole runs of macro_form_io with arbitrary file contents and arbitrary effect of other lines. Files are identified by their normalised path. A file that was included and is also given as a later source is written twice: C44_source_twice."
  },
  {
   "property": "C45",
   "status": "proved",
   "theorems": [
    "RuC.Linker.C45_include_path",
    "RuC.Linker.C45_backslashes",
    "RuC.Linker.isDir_unique",
    "RuC.Linker.C45_witness"
   ],
   "note": "Paths of 1024 characters or more overflow the array (undefined in the model). A single backslash is dropped: C45_witness."
  },
  {
   "property": "C46",
   "status": "proved",
   "theorems": [
    "RuC.Tables.Props.C46_enum_stored",
    "RuC.Tables.Props.C46_enum_inside",
    "RuC.Tables.Props.C46_enum_overrun",
    "RuC.Tables.Props.C46_enum_unwritten",
    "RuC.Tables.Props.C46_function_inside",
    "RuC.Tables.Props.C46_function_exactly",
    "RuC.Tables.Props.C46_structure_exactly",
    "RuC.Tables.Props.C46_signature_exactly",
    "RuC.Tables.Props.C46_builtins_inside"
   ],
   "note": "Exact limits. C46_enum_overrun, and the else-branches of C46_function_exactly and C46_structure_exactly, show that the code overruns its tables beyond them; C46_enum_unwritten: an enumeration whose only value is no expression makes the code read an unwritten cell."
  },
  {
   "property": "C47",
   "status": "proved",
   "theorems": [
    "RuC.Driver.Props.C47_first_failure",
    "RuC.Driver.Props.C47_success"
   ],
   "note": "For all answers of the phases and all flags; the phases themselves are abstract here. The MIPS target answers the general status of code generation (not sts_mips_error)."
  },
  {
   "property": "C48",
   "status": "proved",
   "theorems": [
    "RuC.Driver.Props.C48_counts",
    "RuC.Driver.Props.C48_at_most_one",
    "RuC.Driver.Props.C48_parse",
    "RuC.Driver.Props.C48_position",
    "RuC.Driver.Props.C48_counter_wraps"
   ],
   "note": "Fewer than 2^64 reports; C48_counter_wraps is the case beyond."
  },
  {
   "property": "C49",
   "status": "proved",
   "theorems": [
    "RuC.Lexer.word_read",
    "RuC.Lexer.keywords_known",
    "RuC.Lexer.other_names_free"
   ],
   "note": "The representation table enters as the function giving the reference of a name (C07); the initial table is modelled."
  },
  {
   "property": "C50",
   "status": "proved",
   "theorems": [
    "RuC.Lexer.string_literal_read",
    "RuC.Lexer.string_literal_exists",
    "RuC.Lexer.char_literal_read"
   ],
   "note": ""
  },
  {
   "property": "C51",
   "status": "proved",
   "theorems": [
    "RuC.Stmt.Props.statement_complete",
    "RuC.Stmt.Props.statement_sound",
    "RuC.Stmt.Props.statement_unique",
    "RuC.Stmt.Props.statement_ends"
   ],
   "note": "Statements and local declarations of variables; a run ends at the first reported error; struct, enum and typedef definitions inside bodies are not modelled."
  },
  {
   "property": "C52",
   "status": "partial",
   "theorems": [
    "RuC.Scope.Props.declaration_reads_back_partial",
    "RuC.Scope.Props.late_function_type",
    "RuC.Scope.Props.late_function_number"
   ],
   "note": "Functions whose number or type is 1000 or more are excluded: there the number is not recorded, or the function is taken for a type name (witness theorems)."
  },
  {
   "property": "C53",
   "status": "partial",
   "theorems": [
    "RuC.Instr.Props.builtin_instruction_partial",
    "RuC.Instr.Props.builtin_numbers",
    "RuC.Instr.Props.builtin_covered",
    "RuC.Instr.Props.exit_does_nothing"
   ],
   "note": "Proved for all library functions but exit, which is registered and compiled to the instruction that does nothing (exit_does_nothing)."
  },
  {
   "property": "C54",
   "status": "proved",
   "theorems": [
    "RuC.Cond.C54_nesting_is_checked"
   ],
   "note": "Single lines are assumed not to report messages about nesting; recovery is not disabled."
  },
  {
   "property": "C55",
   "status": "partial",
   "theorems": [
    "RuC.Cond.C55_failure_is_kept_partial",
    "RuC.Cond.C55_witness"
   ],
   "note": "Proved for errors noted before, for unterminated blocks and for endless loops; a misplaced end or continuation inside a skipped block is reported but forgotten (witness)."
  },
  {
   "property": "C56",
   "status": "partial",
   "theorems": [
    "RuC.Linker.C56_search_order_partial",
    "RuC.Linker.C56_current",
    "RuC.Linker.C56_witness"
   ],
   "note": "The order of the paths that are tried is proved, but 'beside the including file' is violated: lk->current is not restored after an include, so it is the file opened last. C56_witness shows the wrong file being taken."
  },
  {
   "property": "C57",
   "status": "proved",
   "theorems": [
    "RuC.Checks.Props.initialiser_taken"
   ],
   "note": "World says that the table of types comes from a history of requests as the parser makes them."
  },
  {
   "property": "C58",
   "status": "proved",
   "theorems": [
    "RuC.Checks.Props.call_checked",
    "RuC.Checks.Props.call_of_other",
    "RuC.Checks.Props.print_checked",
    "RuC.Checks.Props.ids_checked"
   ],
   "note": "print also accepts a list of initialisers, which the statement does not speak about (its type is undefined)."
  },
  {
   "property": "C59",
   "status": "proved",
   "theorems": [
    "RuC.Checks.Props.printf_format",
    "RuC.Checks.Props.string_type_found",
    "RuC.Checks.Props.printf_needs_format",
    "RuC.Checks.Props.printf_many_arguments"
   ],
   "note": "printf_many_arguments: with 20 or more arguments the code formats its message without the argument the message needs, undefined behaviour. string_type_found shows that the type of string literals asked for is the one in the table."
  },
  {
   "property": "C60",
   "status": "proved",
   "theorems": [
    "RuC.Checks.Props.subscript_checked",
    "RuC.Checks.Props.member_found",
    "RuC.Checks.Props.member_of_other",
    "RuC.Checks.Props.arrow_of_other",
    "RuC.Checks.Props.const_member_confused"
   ],
   "note": "const_member_confused shows why the condition on const is needed: const of two built-in types other than int is one type in the table."
  },
  {
   "property": "C61",
   "status": "proved",
   "theorems": [
    "RuC.Checks.Props.condition_checked",
    "RuC.Checks.Props.return_nothing",
    "RuC.Checks.Props.return_value",
    "RuC.Checks.Props.void_pointer_returns_anything"
   ],
   "note": "void_pointer_returns_anything: a function with the result void * may return anything, which the statement exempts."
  },
  {
   "property": "C62",
   "status": "proved",
   "theorems": [
    "RuC.Checks.Props.declarator_checked",
    "RuC.Checks.Props.member_declarator_checked"
   ],
   "note": "As stated, 'void *p' is refused: the type it starts from is void."
  },
  {
   "property": "C63",
   "status": "proved",
   "theorems": [
    "RuC.Scope.Props.undefined_functions_reported",
    "RuC.Scope.Props.main_variable_counts"
   ],
   "note": "main_variable_counts: a variable named main counts as the function."
  },
  {
   "property": "C64",
   "status": "proved",
   "theorems": [
    "RuC.Locator.Props.search_finds",
    "RuC.Locator.Props.long_path_overruns"
   ],
   "note": "Texts are lists of lines (code and three kinds of marks) rendered to characters and encoded as UTF-8; preconditions as in the statement. A path of 1024 octets or more overruns the buffer of the caller (long_path_overruns)."
  },
  {
   "property": "C65",
   "status": "proved",
   "theorems": [
    "RuC.Locator.Props.reach_says",
    "RuC.Locator.Props.reach_goes_on",
    "RuC.Locator.Props.line_break_with_marks"
   ],
   "note": "Any sequence of moves, as an inductive relation; that loc_line_break is wrong in a text with marks is line_break_with_marks."
  },
  {
   "property": "C66",
   "status": "proved",
   "theorems": [
    "RuC.Locator.Props.update_round_trip",
    "RuC.Locator.Props.update_begin_round_trip",
    "RuC.Locator.Props.update_end_round_trip"
   ],
   "note": "Printing is related to searching in the text that is written, for all three kinds of marks; the column must not lie behind the end of the line of code shown."
  },
  {
   "property": "C67",
   "status": "proved",
   "theorems": [
    "RuC.Text.Props.text_printed",
    "RuC.Text.Props.value_unique",
    "RuC.Text.Props.return_dropped",
    "RuC.Text.Props.return_in_comment",
    "RuC.Text.Props.number_cut",
    "RuC.Text.Props.reported_twice",
    "RuC.Text.Props.self_reported"
   ],
   "note": "Proved for directives-free texts and macros without arguments; value_unique: the text printed for a macro is determined. Witnesses show what the code does with lone carriage returns, numbers followed by letters, unended comments and self-referring macros."
  },
  {
   "property": "C68",
   "status": "proved",
   "theorems": [
    "RuC.Text.Props.printed_place"
   ],
   "note": "The output is assumed shorter than 2^62 octets, as in C64."
  },
  {
   "property": "C69",
   "status": "proved",
   "theorems": [
    "RuC.Text.Props.replaced_place"
   ],
   "note": "The output is assumed shorter than 2^62 octets, as in C64."
  },
  {
   "property": "C70",
   "status": "proved",
   "theorems": [
    "RuC.Subst.Props.macro_applied",
    "RuC.Subst.Props.macro_kept",
    "RuC.Subst.Props.empty_argument",
    "RuC.Subst.Props.vanished_argument",
    "RuC.Subst.Props.hash_glued",
    "RuC.Subst.Props.number_replaced"
   ],
   "note": "Macros in the arguments are replaced by any function; the preconditions that are named in the statement are each shown to be needed: empty_argument, vanished_argument, hash_glued."
  },
  {
   "property": "C71",
   "status": "proved",
   "theorems": [
    "RuC.Subst.Props.wrong_number",
    "RuC.Subst.Props.no_brackets",
    "RuC.Subst.Props.macro_applied",
    "RuC.Subst.Props.end_accepted",
    "RuC.Subst.Props.bracket_forever"
   ],
   "note": "For calls that are closed. A call that is not closed may be accepted (end_accepted) or be read for ever (bracket_forever)."
  },
  {
   "property": "C72",
   "status": "partial",
   "theorems": [
    "RuC.Subst.Props.string_made",
    "RuC.Subst.Props.string_stands",
    "RuC.Subst.Props.string_changed",
    "RuC.Subst.Props.string_same"
   ],
   "note": "One string always; it stands for the argument only if there are no backslashes in it: string_changed and string_same show that it fails with them."
  },
  {
   "property": "C73",
   "status": "proved",
   "theorems": [
    "RuC.Subst.Props.hash_refused",
    "RuC.Subst.Props.hash_first",
    "RuC.Subst.Props.twice_refused",
    "RuC.Subst.Props.comma_accepted"
   ],
   "note": "A comma behind the last parameter is not refused (comma_accepted)."
  },
  {
   "property": "C74",
   "status": "partial",
   "theorems": [
    "RuC.Llvm.Props.unit_refines_partial",
    "RuC.LlvmText.Props.C74_text_runs_partial",
    "RuC.Llvm.Props.continue_wrong",
    "RuC.Llvm.Props.return_main_wrong",
    "RuC.Llvm.Props.assign_test_wrong",
    "RuC.Llvm.Props.for_wrong",
    "RuC.Llvm.Props.not_wrong",
    "RuC.Llvm.Props.not_stored_wrong",
    "RuC.Llvm.Props.constants_wrong",
    "RuC.Llvm.Props.unary_wrong",
    "RuC.Llvm.Props.ternary_wrong",
    "RuC.Llvm.Props.return_cmp_wrong",
    "RuC.Llvm.Props.declared_cmp_wrong",
    "RuC.Llvm.Props.swapped_wrong",
    "RuC.Llvm.Props.logic_stored_wrong",
    "RuC.Llvm.Props.switch_wrong"
   ],
   "note": "Proved for trees of the kind okF (Frag.lean). Missing: the other trees, where the claim does not hold; theorems with programs show it for continue, return in main, an assignment as a condition, for without a condition, ! of a bool, stored logic values, operators on two constants, unary operators on constants, a ternary inside an operand of a ternary, returned or declared comparisons, and switch."
  },
  {
   "property": "C75",
   "status": "proved",
   "theorems": [
    "RuC.Llvm.Props.registers_once"
   ],
   "note": "For all trees of the model."
  },
  {
   "property": "C76",
   "status": "partial",
   "theorems": [
    "RuC.Llvm.Props.labels_once_partial",
    "RuC.Llvm.Props.targets_exist_partial",
    "RuC.Llvm.Props.labels_twice",
    "RuC.Llvm.Props.switches_twice",
    "RuC.Llvm.Props.target_missing"
   ],
   "note": "Proved for trees of the kind okF, jumps for functions without a break outside of a loop. Missing: stored logic values and switch, where a label is put twice or is missing."
  },
  {
   "property": "C77",
   "status": "proved",
   "theorems": [
    "RuC.Ast.Props.ast_call_succeeds",
    "RuC.Ast.Props.ast_reads",
    "RuC.Ast.Props.ast_nodes_distinct"
   ],
   "note": "Over the model of AST.c on the tree of tree.c in one vector. Left out: enumeration constants with values of their own; a double is the one cell of its bits (C16); lists of initialisers are not empty; fewer than 2^62 cells."
  },
  {
   "property": "C78",
   "status": "proved",
   "theorems": [
    "RuC.Ast.Props.ast_unit"
   ],
   "note": "The hypothesis that no node is left unused is needed (unfinished_node_miscounts); the parser leaves nodes only after an error. A declaration given a broken initialiser other than NULL miscounts (broken_initializer_miscounts)."
  },
  {
   "property": "C79",
   "status": "partial",
   "theorems": [
    "RuC.Mips.Props.pool_partial",
    "RuC.Mips.Props.used_kept",
    "RuC.Mips.Props.value_register",
    "RuC.Mips.Props.places",
    "RuC.Mips.Props.given_back_partial",
    "RuC.Mips.Props.saved_lost",
    "RuC.Mips.Props.exhausted",
    "RuC.Mips.Props.leak",
    "RuC.Mips.Props.leak_exhausts"
   ],
   "note": "Proved for every expression and state: registers in use are neither set nor lost, and the value's register was free (Props used_kept, value_register); places of variables stay as the theorems ask (places); up to eight registers at a time are different from each other (pool_partial); units that load no constants into registers give all back (given_back_partial). Missing because the code does otherwise: constants loaded for - * / %, comparisons, unary minus, return, switch are never given back (leak, leak_exhausts); $s0 and $s1 once given back are not given again (saved_lost); after ten the same register is given to all (exhausted)."
  },
  {
   "property": "C80",
   "status": "proved",
   "theorems": [
    "RuC.Mips.Props.labels_once",
    "RuC.Mips.Props.jumps_lead",
    "RuC.Mips.Props.jumps_stay",
    "RuC.Mips.Props.calls_lead",
    "RuC.Mips.Props.stray"
   ],
   "note": "For all units over int and bool. stray shows that the condition on break is needed."
  },
  {
   "property": "C81",
   "status": "partial",
   "theorems": [
    "RuC.Mips.Props.call_partial",
    "RuC.Mips.Props.program_partial",
    "RuC.Mips.Props.greater_wrong",
    "RuC.Mips.Props.equal_wrong",
    "RuC.Mips.Props.return_two",
    "RuC.Mips.Props.initial_lost",
    "RuC.Mips.Props.constant_first",
    "RuC.Mips.Props.parameter_lost",
    "RuC.Mips.Props.parameter_changed",
    "RuC.Mips.Props.argument_overwritten",
    "RuC.Mips.Props.choice_reversed",
    "RuC.Mips.Props.remainder_lost",
    "RuC.Mips.Props.operand_lost",
    "RuC.Mips.Props.stepped_early",
    "RuC.MipsText.Props.C81_text_runs_partial"
   ],
   "note": "call_partial and program_partial hold for the units of okU (Mips/Frag.lean), whose functions never need an eleventh register, with globals taken as they are in memory. Outside of it the generator is wrong: the other theorems are programs whose text gives another answer than the source. C81_text_runs_partial says the same of the characters that are printed: they are read back, and what was read runs so."
  },
  {
   "property": "C82",
   "status": "partial",
   "theorems": [
    "RuC.Mips.Props.frame_partial"
   ],
   "note": "For the units of okU (Mips/Frag.lean); calls inside of expressions and of arguments are left out."
  },
  {
   "property": "C83",
   "status": "proved",
   "theorems": [
    "RuC.Logger.Props.log_marks",
    "RuC.Logger.Props.log_plain",
    "RuC.Logger.Props.auto_marks",
    "RuC.Logger.Props.marked_unique",
    "RuC.Logger.Props.long_line_overruns"
   ],
   "note": "Over Unicode characters below 0x200000 in UTF-8; what is marked is given by the relation Marked, which determines it (marked_unique). Texts that do not fit the buffer of 4096 octets are undefined behaviour (log_marks, last part; long_line_overruns is a concrete case). For a location the text is a buffer whose characters can be written back by utf8_to_string (C10)."
  },
  {
   "property": "C84",
   "status": "proved",
   "theorems": [
    "RuC.Logger.Props.each_delivered_once",
    "RuC.Logger.Props.set_answers"
   ],
   "note": "Induction over the sequence of calls; a call whose text overruns the buffer ends the sequence."
  },
  {
   "property": "C85",
   "status": "proved",
   "theorems": [
    "RuC.Logger.Props.marked_shown",
    "RuC.Logger.Props.plain_shown",
    "RuC.Logger.Props.line_shown"
   ],
   "note": "The console of Linux; each octet shown is paired with the colour in force."
  },
  {
   "property": "C86",
   "status": "partial",
   "theorems": [
    "RuC.Commenter.Props.found_partial",
    "RuC.Commenter.Props.macro_found",
    "RuC.Commenter.Props.tag_partial",
    "RuC.Commenter.Props.none_found_partial",
    "RuC.Commenter.Props.empty_line_wrong",
    "RuC.Commenter.Props.reads_before_text"
   ],
   "note": "Proved for every text, path, line, column and position, except on empty lines in the middle of a text: there the answered line is one too high (empty_line_wrong). A text that begins with ' #' or '/ #' is read in front of its beginning (reads_before_text)."
  },
  {
   "property": "C87",
   "status": "partial",
   "theorems": [
    "RuC.Listing.Props.C87_cells_partial",
    "RuC.Listing.Props.C87_jumps_partial",
    "RuC.Listing.Props.C87_functions_partial",
    "RuC.Listing.Props.C87_text_partial",
    "RuC.Listing.Props.C87_readable_partial",
    "RuC.Listing.Props.C87_floating_swallows",
    "RuC.Listing.Props.C87_string_swallows"
   ],
   "note": "For programs whose floating literals take two cells (as with 32-bit cells), whose strings and tables of initialisation hold no numbers of instructions (characters below 9001), whose operators are those of their kind and in which an expression used as a statement computes something; the text determines the memory if there are no floating literals. The code breaks the claim otherwise: C87_floating_swallows (the default of 64-bit cells has floating literals in one cell, the listing takes two), C87_string_swallows (a character whose number is that of an instruction)."
  },
  {
   "property": "C88",
   "status": "proved",
   "theorems": [
    "RuC.Streams.Props.streams_follow_last_setting",
    "RuC.Streams.Props.other_streams_untouched",
    "RuC.Streams.Props.buffer_size_wraps"
   ],
   "note": "uniio.c with the printing and scanning of uniprinter.c and uniscanner.c; scanning with the format %c only (several conversions in one format are not modelled). The refinement is to a specification with one source and one sink per stream. A buffer size of SIZE_MAX is undefined behaviour (buffer_size_wraps)."
  },
  {
   "property": "C89",
   "status": "proved",
   "theorems": [
    "RuC.Streams.Props.files_and_blocks_have_one_owner",
    "RuC.Streams.Props.nothing_left_after_erase",
    "RuC.Streams.Props.ledger_sees_faults"
   ],
   "note": "Files and blocks are numbered afresh by the system; the record of events is checked by a ledger that fails on any use of what is not owned."
  },
  {
   "property": "C90",
   "status": "proved",
   "theorems": [
    "RuC.Names.Props.C90_letter_by_letter",
    "RuC.Names.Props.C90_name_in_latin",
    "RuC.Names.Props.C90_legal_first",
    "RuC.Names.Props.C90_latin_kept",
    "RuC.Names.Props.C90_library_kept",
    "RuC.Names.Props.C90_soft_sign_witness",
    "RuC.Names.Props.C90_long_name_witness"
   ],
   "note": "Letter by letter against an independent table of the passport transliteration; identifiers of at most 1023 characters fit the array; legal first character unless a soft sign begins the identifier. Witnesses: the function ь gets the empty name, ь1 the name 1; more than 1023 letters щ overflow the array."
  },
  {
   "property": "C91",
   "status": "partial",
   "theorems": [
    "RuC.Names.Props.C91_names_apart_partial",
    "RuC.Names.Props.C91_latin_apart_partial",
    "RuC.Names.Props.C91_same_name_witness"
   ],
   "note": "Holds for names of Russian letters without ё й ц щ ъ ь э ю я (with digits and underscores) and for names without Russian letters; false in general: мой/мои, щит/шчит, ель/ел, цель/тсель, сума/suma get one name (witness)."
  },
  {
   "property": "C92",
   "status": "proved",
   "theorems": [
    "RuC.Flags.Props.C92_flags_define_macros",
    "RuC.Flags.Props.C92_name_is_read",
    "RuC.Flags.Props.C92_long_name_witness"
   ],
   "note": "From the octets of the flags to the answers of the macro storage, through the refinement of C41. Names of 1024 characters or more are written behind the array (witness, proved for all of them)."
  },
  {
   "property": "C93",
   "status": "proved",
   "theorems": [
    "RuC.LlvmText.Props.C93_read_back",
    "RuC.LlvmText.Props.C93_different",
    "RuC.LlvmText.Props.C93_unit_read_back",
    "RuC.LlvmText.Props.C93_same_name_confused"
   ],
   "note": "Round trip through an independent reader of LLVM text (LlvmText/Spec.lean), first for every list of printable instructions, then for what the generator makes of every tree without floating values. Witness: with one name for two functions two units have one text, which C91 shows to happen."
  },
  {
   "property": "C94",
   "status": "proved",
   "theorems": [
    "RuC.LlvmText.Props.C94_strings_read_back",
    "RuC.LlvmText.Props.C94_different",
    "RuC.LlvmText.Props.C94_quote_breaks",
    "RuC.LlvmText.Props.C94_backslash_changes",
    "RuC.LlvmText.Props.C94_backslash_at_end"
   ],
   "note": "For strings without quotes and backslashes, as stated. Witnesses: a quote makes text that cannot be read, a backslash with two hexadecimal digits becomes one byte under a wrong size, a backslash at the end swallows the zero."
  },
  {
   "property": "C95",
   "status": "proved",
   "theorems": [
    "RuC.MipsText.Props.C95_read_back",
    "RuC.MipsText.Props.C95_different",
    "RuC.MipsText.Props.C95_unit_read_back",
    "RuC.MipsText.Props.C95_constant_first",
    "RuC.MipsText.Props.C95_remainder"
   ],
   "note": "The directives, strings and the runtime are outside of the text; `C95_constant_first` and `C95_remainder` are texts that are refused."
  },
  {
   "property": "C96",
   "status": "proved",
   "theorems": [
    "RuC.MipsStrings.Props.C96_strings_read_back",
    "RuC.MipsStrings.Props.C96_different",
    "RuC.MipsStrings.Props.C96_quote_breaks",
    "RuC.MipsStrings.Props.C96_backslash_changes",
    "RuC.MipsStrings.Props.C96_backslash_at_end",
    "RuC.MipsStrings.Props.C96_new_line_breaks",
    "RuC.MipsStrings.Props.C96_percent_at_end"
   ],
   "note": "A quote, a backslash, and % in front of a new line or at the end of a string break the text (the other theorems)."
  },
  {
   "property": "C97",
   "status": "partial",
   "theorems": [
    "RuC.MipsStrings.Props.C97_printf_partial",
    "RuC.MipsStrings.Props.C97_percent_lost",
    "RuC.MipsStrings.Props.C97_percent_shifts",
    "RuC.MipsStrings.Props.C97_letter_cut",
    "RuC.MipsStrings.Props.C97_output_between"
   ],
   "note": "C97_printf_partial holds for formats without %% and without conversion letters of two bytes, and arguments of which only the first may write while it is computed. Otherwise the code is wrong: the other theorems."
  },
  {
   "property": "C98",
   "status": "proved",
   "theorems": [
    "RuC.Spelling.Props.C98_read_back",
    "RuC.Spelling.Props.C98_different",
    "RuC.Spelling.Props.C98_written",
    "RuC.Spelling.Props.C98_const_array",
    "RuC.Spelling.Props.C98_too_long",
    "RuC.Spelling.Props.C98_enum_lost"
   ],
   "note": "A constant array is spelled as an array of constants, 128 characters and more overrun the buffer of write_type, enumerations are not spelled (the last three theorems). write_tree, which uses it, is called in debug builds."
  },
  {
   "property": "C99",
   "status": "proved",
   "theorems": [
    "RuC.Outline.Props.C99_outline",
    "RuC.Outline.Props.C99_tells_apart",
    "RuC.Outline.Props.C99_level_kept",
    "RuC.Outline.Props.C99_for_ambiguous",
    "RuC.Outline.Props.C99_character_breaks_line",
    "RuC.Outline.Props.C99_string_breaks_line",
    "RuC.Outline.Props.C99_invalid_not_indented"
   ],
   "note": "Area Outline. The reader of outlines and the tree of lines of a program are the spec. Witnesses for what does not hold: C99_for_ambiguous, C99_character_breaks_line, C99_string_breaks_line, C99_invalid_not_indented."
  },
  {
   "property": "C100",
   "status": "proved",
   "theorems": [
    "RuC.Pairs.Props.C100_without",
    "RuC.Pairs.Props.C100_after"
   ],
   "note": "Area Pairs; the whole finite table of spellings, checked by the kernel. Which of the two messages is given is in area Cond (parse_next)."
  },
  {
   "property": "C101",
   "status": "partial",
   "theorems": [
    "RuC.Wide.Props.C101_stored_partial",
    "RuC.Wide.Props.C101_refused",
    "RuC.Wide.Props.C101_refusal_not_told",
    "RuC.Wide.Props.C101_amount_overwritten",
    "RuC.Wide.Props.C101_undefined_shift"
   ],
   "note": "Area Wide, over Hash and Item. Proved for machines on which a shift by 64 places gives some value (by the C standard it is undefined, C101_undefined_shift), with one NaN pattern lost. Not so in the code: a refusal is answered with the index of the record (C101_refusal_not_told), and the number SIZE_MAX passes the check (C101_amount_overwritten)."
  },
  {
   "property": "C102",
   "status": "proved",
   "theorems": [
    "RuC.Suffix.Props.C102_suffixes",
    "RuC.Suffix.Props.C102_c_accepted",
    "RuC.Suffix.Props.C102_mixed_case"
   ],
   "note": "Area Suffix. Proved for the grammar in which the two letters of ll may differ in case; the C standard demands the same case, and uLl is accepted (C102_mixed_case)."
  },
  {
   "property": "C103",
   "status": "partial",
   "theorems": [
    "RuC.Declared.Props.C103_declared_partial",
    "RuC.Declared.Props.C103_array_member",
    "RuC.Declared.Props.C103_not_a_structure"
   ],
   "note": "Area Declared, over Types. Proved: when the loop ends, every structure without arrays is declared exactly once with its members in order. Not so in the code: for an array the word here is written (C103_array_member), and cells that are no types are declared (C103_not_a_structure). Missing too: the histories missing in C30."
  },
  {
   "property": "C104",
   "status": "partial",
   "theorems": [
    "RuC.Push.Props.C104_last_in_first_out_partial",
    "RuC.Push.Props.C104_nan",
    "RuC.Push.Props.C104_undefined_shift"
   ],
   "note": "Area Push, over Item. Proved for machines on which a shift by 64 places gives some value (by the C standard it is undefined, C104_undefined_shift) and while memory does not run out. Not so in the code: one NaN pattern is read as DBL_MAX (C104_nan)."
  }
 ]
}