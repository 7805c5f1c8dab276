{"id": "C01", "title": "Growable vector behaves as a sequence", "statement": "Starting from vector_create, any history of vector_add / vector_set / vector_get / vector_remove / vector_increase / vector_resize / vector_size calls returns exactly what the same history on a plain mathematical sequence returns: indices are dense, new cells made by increase/resize read as zero, an out-of-range get answers ITEM_MAX and an out-of-range set answers -1 and changes nothing.", "quantifier": "for every initial capacity, every history of calls and every argument value", "why_tests_cant": "growth by doubling, shrinking and re-growing interact; a test fixes one history and one capacity", "anchors": ["libs/utils/vector.c: vector_create, vector_increase, vector_add, vector_set, vector_get, vector_resize, vector_remove, vector_size", "libs/utils/vector.h"]}
{"id": "C02", "title": "A failed allocation leaves the vector intact", "statement": "If the allocator refuses a growth request, vector_add answers SIZE_MAX and vector_increase / vector_resize answer -1, and every element and the size are exactly as before the call; later calls keep behaving as the sequence.", "quantifier": "for every history and every point at which realloc fails", "why_tests_cant": "allocation failure points cannot be enumerated by a test run", "anchors": ["libs/utils/vector.c: vector_change_size, vector_increase, vector_add, vector_resize"]}
{"id": "C03", "title": "Vector accessors never touch memory outside the vector", "statement": "Every read or write performed by the vector accessors (including the 64-bit and floating ones used by the typed stack) is at an index below the current size.", "quantifier": "for every vector state and every index argument that fits size_t", "why_tests_cant": "out-of-bounds accesses are silent; the offending index is one value out of 2^64", "anchors": ["libs/utils/vector.c: vector_get, vector_set, vector_get_int64, vector_set_int64, vector_get_double, vector_set_double", "libs/utils/stack.h: stack_peek_int64"]}
{"id": "C04", "title": "Stack is LIFO", "statement": "Any history of stack_push / stack_pop / stack_peek / stack_size / stack_reset returns what an abstract last-in-first-out stack returns; pop and peek on an empty stack answer ITEM_MAX and leave it empty.", "quantifier": "for every history of calls", "why_tests_cant": "histories are unbounded", "anchors": ["libs/utils/stack.h: stack_push, stack_pop, stack_peek, stack_size, stack_reset"]}
{"id": "C05", "title": "Hash table behaves as a finite map", "statement": "Any history of hash_add / hash_set / hash_get / hash_get_amount / hash_remove on keys other than the reserved ITEM_MAX returns exactly what a finite map from keys to fixed-length arrays returns: add of a present key answers SIZE_MAX and changes nothing, a new record starts with zero values, set touches only the addressed key and position, remove forgets exactly that key, also when keys share a bucket and when removed records are reused.", "quantifier": "for every history of calls, every key and record length", "why_tests_cant": "collisions, tombstone reuse and lengths interact in ways a fixed test list does not cover", "anchors": ["libs/utils/hash.c: hash_create, hash_add, hash_get_index, hash_get, hash_set, hash_remove, hash_remove_by_index"]}
{"id": "C06", "title": "Hash record indices stay valid", "statement": "The index returned by hash_add keeps addressing the same record (same key, same values) through every later operation on other keys, until that key is removed; hash_add never returns an index inside another live record.", "quantifier": "for every history of calls", "why_tests_cant": "needs an invariant over all later operations", "anchors": ["libs/utils/hash.c: hash_add, hash_get_key, hash_get_by_index, hash_set_by_index, hash_get_amount_by_index"]}
{"id": "C07", "title": "Names are interned", "statement": "Reserving or adding a key in the map twice answers the same index, two different keys never share an index, and the text read back from an index is the key that was given.", "quantifier": "for every history of insertions and every key text", "why_tests_cant": "collisions (the hash is a sum of code points) and buffer growth have to be covered for all key sets", "anchors": ["libs/utils/map.c: map_add, map_reserve, map_get_index, map_to_string"]}
{"id": "C08", "title": "Map lookup returns the last value written", "statement": "After any history of map_add / map_set / map_set_by_index, map_get(key) and map_get_by_index answer the last value stored for that key, and the value of no other key is disturbed.", "quantifier": "for every history of calls and every key", "why_tests_cant": "histories are unbounded", "anchors": ["libs/utils/map.c: map_add, map_set, map_set_by_index, map_get, map_get_by_index"]}
{"id": "C09", "title": "Strings storage returns the text that was added", "statement": "For any history of strings_add / strings_remove, strings_get(i) is exactly the i-th string currently stored, byte for byte, strings_get_length is its length, and an out-of-range index answers NULL / 0, across every reallocation of the underlying buffer.", "quantifier": "for every history of calls and every byte content", "why_tests_cant": "reallocation points depend on all previous lengths", "anchors": ["libs/utils/strings.c: strings_add, strings_add_by_vector, strings_get, strings_get_length, strings_remove, strings_size"]}
{"id": "C10", "title": "Tree construction builds the described ordered tree", "statement": "Starting from an empty tree, any sequence of node_add_child / node_add_arg / node_set_arg / node_set_type calls on nodes of the tree, where arguments are only added to the node created last, yields a stored tree whose node types, arguments, child counts, n-th children, and parents read back (node_get_type, node_get_arg, node_get_amount, node_get_child, node_get_parent) exactly as in the ordered tree described by the calls; every loop over links ends.", "quantifier": "for every construction sequence", "why_tests_cant": "links are threaded through one array; all shapes must be covered", "anchors": ["libs/utils/tree.c: tree_create, node_add_child, node_add_arg, node_set_arg, node_get_child, node_get_parent, node_get_amount, node_get_type"]}
{"id": "C11", "title": "Tree traversal visits every node once in preorder", "statement": "In a tree with at least one node besides the root, iterating node_get_next from the root visits the nodes of the tree in depth-first preorder, each exactly once, and then reports the end.", "quantifier": "for every tree", "why_tests_cant": "quantifies over all tree shapes", "anchors": ["libs/utils/tree.c: node_get_next"]}
{"id": "C12", "title": "Tree edits do what they say", "statement": "node_insert puts exactly one new node between a node and its parent, node_swap exchanges two subtrees neither of which contains the other, node_remove removes exactly one subtree, and the AST builder's node_set_child moves a subtree to the end of another node's children; every other part of the tree reads back unchanged.", "quantifier": "for every tree and every pair of disjoint nodes", "why_tests_cant": "pointer surgery has many boundary shapes (first, middle, last, adjacent)", "anchors": ["libs/utils/tree.c: node_insert, node_swap, node_remove", "libs/compiler/AST.c: node_set_child"]}
{"id": "C13", "title": "UTF-8 encoding round-trips", "statement": "Writing a code point with utf8_to_string and reading it back with utf8_convert gives the same code point, and the bytes are its UTF-8 encoding.", "quantifier": "for every code point below 0x200000", "why_tests_cant": "2 million code points with range-dependent branches", "anchors": ["libs/utils/utf8.c: utf8_to_string, utf8_convert"]}
{"id": "C14", "title": "UTF-8 length functions agree", "statement": "utf8_size(c), the number of bytes utf8_to_string writes, and utf8_symbol_size of its first byte are the same number.", "quantifier": "for every code point below 0x200000", "why_tests_cant": "the three functions branch on different masks", "anchors": ["libs/utils/utf8.c: utf8_size, utf8_symbol_size, utf8_to_string"]}
{"id": "C15", "title": "Code page conversion is lossless", "statement": "Converting any byte string from cp1251 / cp866 to UTF-8 and back gives the original bytes.", "quantifier": "for every byte string", "why_tests_cant": "the property is about all strings of all 256 bytes", "anchors": ["libs/utils/utf8.c: utf8_from_cp1251, utf8_to_cp1251, utf8_from_cp866, utf8_to_cp866"]}
{"id": "C16", "title": "Target cell encoding round-trips", "statement": "A 64-bit integer (or double bit pattern) stored for a target by item_store_*_for_target and read back by item_restore_*_for_target is the same value, using exactly the number of cells item_get_size-style accounting promises, and every stored cell is within the target's range.", "quantifier": "for every 64-bit value and every target width", "why_tests_cant": "2^64 values times 8 targets", "anchors": ["libs/utils/item.c: item_store_int64_for_target, item_restore_int64_for_target, item_store_double_for_target, item_check_var"]}
{"id": "C17", "title": "Target range check is exact", "statement": "item_check_var answers true exactly when the value lies between the minimum and the maximum of the target type; the target selected from the command-line flags is the one named by the single -iN or -uN flag, 32-bit signed if there is none, and an error if there is more than one.", "quantifier": "for every value and target", "why_tests_cant": "boundary values at each width", "anchors": ["libs/utils/item.c: item_check_var, item_get_min, item_get_max, item_get_status"]}
{"id": "C18", "title": "Path normalisation preserves the named file", "statement": "The normalised path produced when a path is added to the workspace denotes the same file-system node as the given one (resolving '.', '..', repeated separators and backslashes), never reads outside its buffers, and is a fixed point of normalisation.", "quantifier": "for every path text", "why_tests_cant": "path shapes are unbounded; failures sit on unusual prefixes", "anchors": ["libs/utils/workspace.c: ws_unix_path"]}
{"id": "C19", "title": "Workspace stores every distinct file, directory and flag once, in order", "statement": "After any history of adds, files (and flags) are listed in first-added order without duplicates, adding a present one answers its old index, and output is the last one set.", "quantifier": "for every history", "why_tests_cant": "histories are unbounded", "anchors": ["libs/utils/workspace.c: ws_add_file, ws_add_dir, ws_add_flag, ws_parse_args, ws_get_file, ws_has_flag"]}
{"id": "C20", "title": "Printing to a buffer concatenates", "statement": "Whatever sequence of prints is made into an output buffer of any initial size, the extracted text is the concatenation of the printed texts and no byte is written outside the allocated buffer.", "quantifier": "for every sequence of printed texts and initial buffer size", "why_tests_cant": "growth depends on all earlier lengths", "anchors": ["libs/utils/uniprinter.c: uni_printf, uni_print_char", "libs/utils/uniio.c: out_set_buffer, out_extract_buffer", "libs/utils/uniprinter.c: out_func_buffer"]}
{"id": "C21", "title": "Unscanning undoes scanning", "statement": "Scanning a character from a buffer and unscanning it returns the input to its previous position, for every valid UTF-8 text and position, so that repeated scanning yields exactly the characters of the text and then EOF forever.", "quantifier": "for every text and position", "why_tests_cant": "multi-byte boundaries and end of input", "anchors": ["libs/utils/uniscanner.c: uni_scan_char, uni_unscan_char"]}
{"id": "C22", "title": "Punctuators are lexed by longest match", "statement": "When the input at the current position starts with a punctuator (and neither with a comment nor with a period before a digit), the lexer returns the kind of the longest punctuator of the language that is a prefix of the input and consumes exactly that many characters.", "quantifier": "for every input text", "why_tests_cant": "the following text is unbounded", "anchors": ["libs/compiler/lexer.c: lex", "libs/compiler/token.h: TOKEN"]}
{"id": "C23", "title": "Lexing always makes progress and terminates", "statement": "Every call of lex either answers the end-of-file token or consumes at least one character, and always returns; repeatedly lexing any text reaches end of file.", "quantifier": "for every input text", "why_tests_cant": "non-termination cannot be observed by a finite test", "anchors": ["libs/compiler/lexer.c: lex, skip_block_comment, skip_line_comment, lex_string_literal, lex_numeric_literal"]}
{"id": "C24", "title": "Integer literals denote their value", "statement": "A decimal literal, or an octal or hexadecimal one written with its prefix, whose value fits a signed 64-bit integer yields an integer token with exactly that value, and the text after it is left.", "quantifier": "for every digit string", "why_tests_cant": "2^64 values and three radices", "anchors": ["libs/compiler/lexer.c: lex_numeric_literal"]}
{"id": "C25", "title": "Comments are skipped exactly", "statement": "A block comment ends at the first '*/' after its opening and a line comment at the first line end; the text after it is lexed as if the comment were absent.", "quantifier": "for every comment body", "why_tests_cant": "the body is arbitrary text", "anchors": ["libs/compiler/lexer.c: skip_line_comment, skip_block_comment"]}
{"id": "C26", "title": "Expressions parse by precedence and associativity", "statement": "For a sequence of operands and binary operators, the parser returns the unique tree with that yield in which operators bind according to the documented precedence levels, assignment and conditional being right-associative and all others left-associative; no operator or operand is lost or reordered.", "quantifier": "for every sequence of operands and operators of any length", "why_tests_cant": "the number of operator sequences is infinite", "anchors": ["libs/compiler/parser.c: parse_RHS_of_binary_expression, parse_assignment_expression, parse_expression", "libs/compiler/operations.c: get_operator_precedence"]}
{"id": "C27", "title": "Error recovery terminates and stops at a requested token", "statement": "skip_until always terminates, never runs past the end of input, and stops either at end of file or at a token of the requested set that is not nested inside brackets opened after the call started.", "quantifier": "for every token sequence and every requested set", "why_tests_cant": "malformed inputs are unbounded", "anchors": ["libs/compiler/parser.c: skip_until, has_token_set"]}
{"id": "C28", "title": "Jump statements only where they make sense", "statement": "A program accepted by the parser contains break only inside a loop or switch, continue only inside a loop, case and default only inside a switch.", "quantifier": "for every statement structure", "why_tests_cant": "nesting is unbounded", "anchors": ["libs/compiler/parser.c: parse_break_statement, parse_continue_statement, parse_case_statement, parse_default_statement, parse_while_statement, parse_do_statement, parse_for_statement, parse_switch_statement"]}
{"id": "C29", "title": "Types are interned structurally", "statement": "Two requests to build a pointer, array, function, structure or const type answer the same type index if and only if they describe the same type.", "quantifier": "for every history of type constructions", "why_tests_cant": "the table is scanned through back links; all histories matter", "anchors": ["libs/compiler/syntax.c: type_add, type_is_equal, type_pointer, type_array, type_const, type_function, type_structure"]}
{"id": "C30", "title": "Stored types read back as built", "statement": "The component queries (element type of pointer/array, return and parameter types of functions, member names and types of structures, size) answer what was given when the type was built, regardless of what was added afterwards.", "quantifier": "for every history of type constructions", "why_tests_cant": "histories are unbounded", "anchors": ["libs/compiler/syntax.c: type_pointer_get_element_type, type_array_get_element_type, type_function_get_parameter_type, type_structure_get_member_type, type_size"]}
{"id": "C31", "title": "Block scoping", "statement": "After scope_block_exit every name denotes exactly what it denoted when the block was entered; inside a block a name denotes its innermost declaration.", "quantifier": "for every sequence of declarations and nested blocks", "why_tests_cant": "nesting and shadowing are unbounded", "anchors": ["libs/compiler/syntax.c: ident_add, scope_block_enter, scope_block_exit, repr_get_reference, repr_set_reference"]}
{"id": "C32", "title": "Stack-frame slots never overlap", "statement": "Within a function, the cells allocated to two variables that are simultaneously in scope are disjoint, lie inside the frame size reported for the function, and globals never overlap locals.", "quantifier": "for every nesting of blocks and every sequence of declarations and sizes", "why_tests_cant": "all nestings", "anchors": ["libs/compiler/codegen.c: displacements_add, scope_block_enter/exit in code generator, emit_function_definition"]}
{"id": "C33", "title": "Constant folding agrees with evaluation", "statement": "When the builder replaces an operator applied to literals by a literal, the literal is the value the operator yields at run time (64-bit integers, booleans).", "quantifier": "for every pair of literal values and every operator", "why_tests_cant": "2^128 operand pairs per operator", "anchors": ["libs/compiler/builder.c: fold_unary_expression, fold_binary_expression, fold_ternary_expression"]}
{"id": "C34", "title": "Type checking of operators", "statement": "The builder accepts an operator application exactly when the operand types satisfy the documented rule for that operator and gives it the documented result type; increments and decrements are exempt from the rule that const places are not changed.", "quantifier": "for every pair of operand types and operators", "why_tests_cant": "the type universe is infinite", "anchors": ["libs/compiler/builder.c: build_binary_expression, build_unary_expression, check_assignment_operands, usual_arithmetic_conversions"]}
{"id": "C35", "title": "Every jump in emitted code lands where the statement says", "statement": "In the code emitted for a statement, every break jumps to the first cell after its loop or switch, every continue to the point where the loop re-tests (or increments), every if/while/for/do/ternary/logical jump to its intended place; no back-patch chain link is left in the code.  Precondition: no call of a function not yet defined, used as a statement, has its operand at an address that looks like an instruction number with a form without value (such addresses start at 9007); there the operand is changed, which is a defect of the code.", "quantifier": "for every nesting of statements", "why_tests_cant": "back-patching chains through the code array; all nestings and all counts of break/continue", "anchors": ["libs/compiler/codegen.c: emit_while_statement, emit_do_statement, emit_for_statement, emit_if_statement, emit_switch_statement, emit_break_statement, emit_continue_statement, addr_begin_condition, addr_end_condition"]}
{"id": "C36", "title": "Calls to functions defined later are resolved", "statement": "After all functions are emitted, every call of a function that was declared before and defined after the call refers to the definition.  Preconditions: calls as in the previous property; a function is passed as an argument only after its definition (before it, the code passes the number 0, a defect of the code).", "quantifier": "for every number and order of calls and definitions", "why_tests_cant": "chains through code memory", "anchors": ["libs/compiler/codegen.c: functions_add, functions_get, emit_call_expression, emit_function_definition"]}
{"id": "C37", "title": "Compiled expressions and statements compute the source meaning", "statement": "Running the emitted code for an expression or statement over integers on the stack machine produces the same final variable values, result and termination behaviour as evaluating the source.", "quantifier": "for every program of the modelled fragment and every initial memory", "why_tests_cant": "programs and inputs are unbounded", "anchors": ["libs/compiler/codegen.c: emit_expression, emit_binary_expression, emit_ternary_expression, emit_assignment_expression, emit_statement", "libs/compiler/instructions.h"]}
{"id": "C38", "title": "Instruction variants are consistent", "statement": "For every operator that exists in an integer and a floating version, or a value and a void version, or a direct and an address version, the code produced by the conversion functions is the documented code of that version, and distinct operators get distinct codes.", "quantifier": "for every instruction of the set", "why_tests_cant": "whole-table claim including the gaps", "anchors": ["libs/compiler/instructions.c: instruction_to_address_ver, instruction_to_floating_ver, instruction_to_void_ver, unary_to_instruction, binary_to_instruction", "libs/compiler/instructions.h"]}
{"id": "C39", "title": "Expression statements leave the machine stack balanced", "statement": "The code emitted for an expression used as a statement leaves the stack height as it was.", "quantifier": "for every expression", "why_tests_cant": "expressions are unbounded", "anchors": ["libs/compiler/codegen.c: emit_void_expression", "libs/compiler/instructions.c: instruction_to_void_ver"]}
{"id": "C40", "title": "Preprocessor expressions evaluate by C rules", "statement": "The value computed for a #if / #elif / #while / #eval expression is the value C assigns to it: usual precedence, left associativity, parentheses, unary operators.", "quantifier": "for every expression", "why_tests_cant": "all operator sequences and nestings", "anchors": ["libs/macro/computer.c: computer_push_token, computer_push_number, computer_pop_result, computer_compare_priority, computer_select_three"]}
{"id": "C41", "title": "Macro storage behaves as a map from names to definitions", "statement": "After any history of #define / #set / #undef / -D operations in which #undef names a macro that is defined and no empty value replaces a value that is not empty, looking a name up answers its last definition (value and number of parameters), or nothing if it was removed or never defined; directive keywords are never confused with macros.", "quantifier": "for every history and every name", "why_tests_cant": "three tables must stay in step", "anchors": ["libs/macro/storage.c: storage_add, storage_set_by_index, storage_set_args_by_index, storage_remove_by_index, storage_search, storage_get_by_index", "libs/macro/keywords.c"]}
{"id": "C42", "title": "Conditional compilation selects the right branch", "statement": "For properly nested #if/#ifdef/#ifndef/#elif/#else/#endif text, the output consists of exactly the lines of the first branch whose condition holds (or of #else), recursively, in order; definitions in branches not taken have no effect.", "quantifier": "for every nesting and every condition outcome", "why_tests_cant": "nesting is unbounded", "anchors": ["libs/macro/parser.c: parse_block, skip_block, parse_if, parse_elif, parse_ifdef_ifndef, parse_next"]}
{"id": "C43", "title": "Macro loops run while their condition holds", "statement": "A #while block is emitted once per evaluation of its condition to non-zero, and preprocessing stops with an error after the fixed maximum number of iterations, so it always terminates on one file of directives.", "quantifier": "for every loop body and condition", "why_tests_cant": "non-termination cannot be tested", "anchors": ["libs/macro/parser.c: parse_while"]}
{"id": "C44", "title": "Headers are included at most once", "statement": "Along a whole preprocessing run #include inserts the text of each file (identified by its normalised path) at most once, and not after it was read as a source; sources are read at most once, in order; includes nest at most 32 deep; an #include of a file that is found nowhere, or too deep, is an error, and then the run fails.", "quantifier": "for every include graph, including cyclic ones", "why_tests_cant": "graphs are unbounded", "anchors": ["libs/macro/linker.c: linker_add_header, linker_add_source, linker_search_internal, linker_search_external", "libs/macro/parser.c: parse_include, parse_path"]}
{"id": "C45", "title": "Include paths are formed from the including file or the include directory", "statement": "The path tried for a quoted include is the directory part of the current file followed by the name; for an angle include it is directory, '/', name. In the name a doubled backslash is a separator, a backslash with a line break is nothing, other characters stand for themselves (a single backslash elsewhere is dropped).", "quantifier": "for every name and path text", "why_tests_cant": "texts are unbounded", "anchors": ["libs/macro/linker.c: linker_make_path"]}
{"id": "C46", "title": "Fixed-size tables in the parser are not overrun", "statement": "Parsing an enumeration of at most 49 enumerators, a function declarator of at most 97 parameters (at every level), a structure of at most 48 members, or a builtin signature of at most 3 letters never writes outside the local tables of the parser, and the cells handed to the table of types are the ones C prescribes; with one entry more the code does write outside (a defect: nothing is checked).", "quantifier": "for every number of enumerators / parameters", "why_tests_cant": "the failing count is just past the table size", "anchors": ["libs/compiler/parser.c: parse_enum_declaration_list, parse_function_declarator", "libs/compiler/syntax.c: type_structure, type_function"]}
{"id": "C47", "title": "Compilation status reports the first failing phase", "statement": "compile answers success only if preprocessing, parsing, linking checks and code generation all succeeded, and otherwise the status of the first phase that failed; nothing after that phase runs.", "quantifier": "for every combination of phase outcomes and flags", "why_tests_cant": "all combinations of flags and outcomes", "anchors": ["libs/compiler/compiler.c: compile, compile_from_ws, compile_from_io, compile_to_vm, compile_to_llvm"]}
{"id": "C48", "title": "Error counting and suppression", "statement": "With recovery enabled every reported error is counted; with '-Wno' only the first error is reported and counted; parse succeeds exactly when no error was reported.", "quantifier": "for every sequence of reports", "why_tests_cant": "histories are unbounded", "anchors": ["libs/compiler/reporter.c: report_error, report_warning", "libs/compiler/parser.c: parse"]}
{"id": "C49", "title": "Words are read to their end and keywords known in both languages", "statement": "After a letter or '#' the lexer takes letters and digits as long as there are any; the word is an identifier of that name unless it is one of the English or Russian names of a keyword, as they are or in upper case, and then it is that keyword; no name belongs to two keywords.", "quantifier": "for every word and every following text", "why_tests_cant": "the number of words is infinite", "anchors": ["libs/compiler/lexer.c: lex_identifier_or_keyword, lex", "libs/compiler/syntax.c: repr_add_keyword, repr_init"]}
{"id": "C50", "title": "String and character literals denote their contents", "statement": "Adjacent string literals yield one string token whose characters are the characters written, escape sequences replaced by what they mean; a character literal of one element yields the value of that element; every text is the content of some literal.", "quantifier": "for every sequence of literals and every content", "why_tests_cant": "contents are unbounded", "anchors": ["libs/compiler/lexer.c: lex_string_literal, lex_char_literal, get_next_string_elem"]}
{"id": "C51", "title": "Statements are parsed by the grammar", "statement": "Parsing a statement ends on every sequence of tokens; it accepts exactly the statements of the C-like grammar with the tree the grammar gives, and an else belongs to the nearest if before it that has none.", "quantifier": "for every sequence of tokens and everything that may follow it", "why_tests_cant": "statements nest without bound and every combination of kinds may stand inside every other", "anchors": ["libs/compiler/parser.c: parse_statement, parse_compound_statement_body, parse_if_statement, parse_for_statement, parse_do_statement, parse_declaration, parse_init_declarator, parse_type_specifier"]}
{"id": "C52", "title": "Declarations are recorded as made", "statement": "After an accepted declaration, the identifier answered reads back the name, the type and the displacement (variables), tag (type names) or number (functions) of the declaration, and no earlier identifier changes.", "quantifier": "for every declaration in every state of the identifier table", "why_tests_cant": "numbers and types grow with the program without bound and one field is shared by several uses", "anchors": ["libs/compiler/syntax.c: ident_add, ident_get_repr, ident_get_type, ident_get_displ, ident_is_type_specifier"]}
{"id": "C53", "title": "Library functions are compiled to their own instructions", "statement": "Every library function the parser registers is compiled, when called, to the machine instruction of that function; the numbers the parser gives to the library identifiers are the numbers the code generator tests for, and user identifiers come after them.", "quantifier": "for every library function", "why_tests_cant": "The agreement is between an order of calls in one file, an enumeration in a header and a switch in another file; a test of some functions says nothing about the others.", "anchors": ["libs/compiler/syntax.c: ident_init, builtin_add", "libs/compiler/operations.h: builtin_t", "libs/compiler/instructions.c: builtin_to_instruction"]}
{"id": "C54", "title": "Wrong nesting of directives is always reported", "statement": "A text of #if/#ifdef/#ifndef/#elif/#else/#endif, #while/#endw and #macro/#endm lines is properly nested if and only if preprocessing it reports no message about an unterminated directive or a misplaced end or continuation, whatever its conditions evaluate to and also inside skipped branches.", "quantifier": "for every sequence of lines and every outcome of its conditions", "why_tests_cant": "texts and nestings are unbounded", "anchors": ["libs/macro/parser.c: parse_block, skip_block, parse_next, parse_if, parse_elif, parse_ifdef_ifndef, parse_while, parse_macro"]}
{"id": "C55", "title": "A run of the preprocessor with an error message fails", "statement": "If a message about block directives is reported, or an error was noted before, the preprocessor finishes with its error flag set.", "quantifier": "for every sequence of lines", "why_tests_cant": "texts are unbounded", "anchors": ["libs/macro/parser.c: skip_block, parse_while, parser_error, parser_preprocess"]}
{"id": "C56", "title": "Include files are searched in the documented order", "statement": "A quoted name is looked up beside the including file first and then in the include directories in order; a name in angle brackets in the include directories first and then beside the including file; the first path that exists is taken, and if none exists nothing is opened.", "quantifier": "for every name, file system, list of directories and state of a run", "why_tests_cant": "file systems and include graphs are unbounded", "anchors": ["libs/macro/linker.c: linker_internal_path, linker_external_path, linker_search_internal, linker_search_external, linker_set_index", "libs/macro/parser.c: parse_path"]}
{"id": "C57", "title": "Initialisers, arguments and assigned values are taken exactly when they fit", "statement": "The builder accepts an expression or a (nested) list of initialisers for a place of some type exactly when the value fits the type, a list has one acceptable initialiser for each member of a structure, or acceptable initialisers for the elements of an array, and a const place is only filled in its declaration; what is accepted keeps its value, converted to floating where an integer fills a floating place, and its lists carry the type of the place.", "quantifier": "for every table of types the parser can build, every type in it and every expression", "why_tests_cant": "types and lists of initialisers nest without bound", "anchors": ["libs/compiler/builder.c: check_assignment_operands", "libs/compiler/syntax.c: type_is_const, type_is_structure, type_is_array, type_structure_get_member_type, type_array_get_element_type"]}
{"id": "C58", "title": "Calls are checked against the declaration", "statement": "A call of a function is accepted exactly when there are as many arguments as parameters and each argument is taken by its parameter; it has the type of the result and cannot be assigned to; anything that is no function cannot be called. print takes one or more arguments that are not pointers; printid and getid take names only.", "quantifier": "for every function type, every list of arguments and every table of types the parser can build", "why_tests_cant": "numbers of parameters and types are unbounded", "anchors": ["libs/compiler/builder.c: build_call_expression, build_print_expression, build_printid_expression, build_getid_expression"]}
{"id": "C59", "title": "printf arguments are checked against the format", "statement": "With fewer than 20 arguments and a literal format, a call of printf is accepted exactly when every % of the format stands before a known specifier or another %, and the other arguments are, in number and in order, taken by the types the specifiers ask for; without a literal format the call is refused.", "quantifier": "for every format text and every list of fewer than 20 arguments", "why_tests_cant": "format texts are unbounded and decoded from UTF-8", "anchors": ["libs/compiler/builder.c: evaluate_args, build_printf_expression"]}
{"id": "C60", "title": "Subscripts and members have the type of the element", "statement": "A subscript is accepted exactly for an array and an integer and is a place of the element type; a member is accepted exactly if the structure (or the structure behind the pointer, for ->) has a member of that name, and it is the first such member, a place if the structure is one; a member of a const structure is const, provided that const of the type of the member is one the table keeps apart (int or a type of the program).", "quantifier": "for every table of types the parser can build, every base expression and every name", "why_tests_cant": "types and member lists are unbounded", "anchors": ["libs/compiler/builder.c: build_subscript_expression, build_member_expression"]}
{"id": "C61", "title": "Conditions, selectors and return values are checked", "statement": "A condition is accepted exactly if it is a scalar; switch and case take integers only; return without a value is accepted exactly in functions without a result; return with a value is refused in those, and in the others, but for functions with the result void *, accepted exactly if the type of the result takes the value.", "quantifier": "for every expression and every function type in every table of types the parser can build", "why_tests_cant": "types are unbounded", "anchors": ["libs/compiler/builder.c: build_if_statement, build_while_statement, build_do_statement, build_for_statement, build_switch_statement, build_case_statement, build_return_statement"]}
{"id": "C62", "title": "Declarators give the declared type", "statement": "A declarator with an optional star, an optional const and any number of bounds gives the variable or the member the type these words describe; it is accepted exactly if the type it starts from is not void, each bound is an integer expression or empty, and the initialiser is taken by the type or, without one, no bound is empty and no part of the type is const.", "quantifier": "for every starting type, every list of bounds and every initialiser in every table of types the parser can build", "why_tests_cant": "the number of bounds and the nesting of types are unbounded", "anchors": ["libs/compiler/builder.c: build_declarator, build_member_declaration", "libs/compiler/syntax.c: type_requires_initialization, type_pointer, type_array, type_const"]}
{"id": "C63", "title": "Undefined functions are reported at the end", "statement": "After a program without other errors, a function is reported as undefined exactly if it was declared without a body and not defined afterwards, main is reported as missing exactly if the name main was never declared, and the final check succeeds exactly if nothing is reported; for programs whose function numbers and function types stay below 1000.", "quantifier": "for every sequence of declarations and scopes", "why_tests_cant": "the order and the number of declarations are unbounded", "anchors": ["libs/compiler/syntax.c: ident_add, sx_is_correct"]}
{"id": "C64", "title": "A position is traced back to its source", "statement": "For every text of code lines and #line marks and every position in a line of code, loc_search gives the line number, the file, the column in characters and the text of the line that the marks assign to the position: counted from the nearest usual mark; inside a macro replacement the place where the macro stands; behind the replacement counted from its end mark, in the file of its begin mark; without marks the line of the text itself. Paths in marks shorter than 1024 octets, marks of replacements paired.", "quantifier": "for every text of valid lines and marks and every position in a line of code", "why_tests_cant": "the search walks back over any number of lines and marks, through characters of one to four octets", "anchors": ["libs/utils/locator.c: line_to_begin, line_to_end, mark_compare, mark_recognize, mark_reverse_recognize, loc_search, loc_search_from, loc_get_path, loc_get_code_line"]}
{"id": "C65", "title": "Going on from a known location is as good as a new search", "statement": "However a location was brought from place to place in a text by loc_search_from, forwards or backwards and through marks, or in a text without marks also by loc_line_break at the end of its line, it names the same line, file, column and line text as a search from scratch.", "quantifier": "for every text of valid lines and marks and every sequence of moves", "why_tests_cant": "the location remembers where counting began; an error shows only for particular sequences of positions and marks", "anchors": ["libs/utils/locator.c: loc_search_from, loc_line_break"]}
{"id": "C66", "title": "Printed marks lead back", "statement": "What loc_update, loc_update_begin and loc_update_end print is a #line mark followed by blanks up to the column (tabs where the code has tabs); wherever this stands in the written text, searching there gives back the line, the file and the column at which it was printed, and everywhere inside a replacement also the line of code.", "quantifier": "for every source text and location and every text written around the mark", "why_tests_cant": "printing and searching are inverse only over all numbers, paths, columns and surroundings", "anchors": ["libs/utils/locator.c: loc_update, loc_update_begin, loc_update_end, loc_search"]}
{"id": "C67", "title": "The preprocessor copies the program and replaces the macros", "statement": "A text without directives comes out of the preprocessor as it is, with no messages: strings (with escapes), words, other characters, blanks, continuations and one-line /* */ comments are copied; // comments and comments over several lines leave only their line ends and blanks up to the column; blank lines at the beginning and the end are left out; each name of a macro without arguments, with or without empty brackets behind it, is replaced by its text with the macros in it replaced in the same way (calls nested up to 256 deep), set between #line marks. For texts without carriage returns and zeros and without lines that look like marks.", "quantifier": "for every text of lines of pieces and every table of macros without arguments", "why_tests_cant": "comments, continuations, strings and nested macros can stand next to each other in unboundedly many ways", "anchors": ["libs/macro/parser.c: parse_hash, parse_until, parse_identifier, parse_replacement, parse_brackets, parse_block, skip_until, skip_lines, skip_comment, skip_multi_comment, skip_string", "libs/macro/parser.c: parser_preprocess"]}
{"id": "C68", "title": "The preprocessed program leads back to its source", "statement": "Whatever stands in front of it, comments over several lines, left out lines, macros in the same line or lines before, each word, string or other character that is copied from the file has in the output a position at which loc_search gives exactly the line, the column and the file it was read from.", "quantifier": "for every text of lines of pieces, every table of macros without arguments and every piece of the text; no line of the text or of a replacement begins with #", "why_tests_cant": "marks and padding are printed at many points depending on all the text in front", "anchors": ["libs/macro/parser.c: parse_hash, parse_until, parse_identifier, parse_block", "libs/utils/locator.c: loc_update, loc_update_begin, loc_update_end, loc_search"]}
{"id": "C69", "title": "The text of a macro leads back to its call", "statement": "Each position in what is printed for a call of a macro without arguments, also behind line ends in its text, is traced by loc_search to the line, the column and the file of the call, and the code line shown is the line of the source with the call in it; for texts of macros that do not begin with a blank.", "quantifier": "for every text of lines of pieces, every table of macros without arguments, every call and every position in its replacement", "why_tests_cant": "depends on all the text in front of the call and on the text of the macro", "anchors": ["libs/macro/parser.c: parse_identifier, parse_replacement", "libs/utils/locator.c: loc_update_begin, loc_search, loc_get_code_line"]}
{"id": "C70", "title": "A macro with arguments stands for its body with the arguments put in", "statement": "For a macro that is defined with parameters and called with as many arguments, what is passed on to be preprocessed is the body of the definition in which every parameter is replaced by its argument with the macros in it replaced, every # parameter by the string of its argument, every ## parameter by the argument as written and joined to what is in front of it; gaps (blanks, comments, continued lines) become single blanks; strings and all other words stay as they are; and the call is read up to its closing bracket. A macro without parameters keeps its body in the same form. It is required that each argument used leaves some text, that a # is set apart from a word in front of it, and that the reserved names __ARG_i_j and __STR_i_j are not used in the body.", "quantifier": "for every list of distinct parameters, every body, every list of arguments with nested brackets, strings, comments and line ends, and every way to replace the macros in the arguments", "why_tests_cant": "bodies and arguments are unbounded and nest; parameters are passed between definition and call as masked names whose clash depends on all of them", "anchors": ["libs/macro/parser.c: parse_args, parse_content, parse_operator, parse_context", "libs/macro/parser.c: parse_brackets, parse_values, parse_observation, parse_replacement"]}
{"id": "C71", "title": "Arguments are split at the commas outside of brackets and strings, and their number is checked", "statement": "A call with more or fewer arguments than parameters is refused with the error that says so, and is read up to its closing bracket; commas in nested brackets and in strings do not separate arguments. Without an opening bracket behind the name, after any blanks, comments and line ends, the name is not a call, and nothing is read.", "quantifier": "for every text of a call, every number of parameters", "why_tests_cant": "the nesting and number of arguments are unbounded", "anchors": ["libs/macro/parser.c: parse_brackets, parse_replacement"]}
{"id": "C72", "title": "The string made of an argument is one string that stands for the argument", "statement": "What # makes of an argument without line ends is read as exactly one string, whatever quotes and backslashes are in the argument, and the string stands for the text of the argument.", "quantifier": "for every text of an argument", "why_tests_cant": "all combinations of quotes and backslashes of any length", "anchors": ["libs/macro/parser.c: parse_values"]}
{"id": "C73", "title": "Ill-formed definitions are refused with their error", "statement": "A definition with a parameter twice, with ## first or last in its body, or with # or ## that no parameter is behind is refused with the error for that, whatever well-formed parameters and tokens are in front.", "quantifier": "for every list of parameters and every beginning of a body", "why_tests_cant": "the text in front of the mistake is unbounded", "anchors": ["libs/macro/parser.c: parse_args, parse_operator, parse_content, parse_context"]}
{"id": "C74", "title": "The LLVM text computes what the source means", "statement": "For every unit whose functions use integers, truth values and strings as arguments, in the forms the generator handles (listed by a predicate on the tree), calling a function in the printed LLVM text with any arguments and any globals gives the value and the effects that the source means whenever the source has a defined meaning, and can give nothing else: arithmetic, assignments, short-circuit conditions, ternaries, loops, break, nested blocks, calls and recursion included.", "quantifier": "for every unit, every function of it, all arguments and states of the globals, every depth of calls and number of rounds", "why_tests_cant": "programs, nesting, values and executions are unbounded", "anchors": ["libs/compiler/llvmgen.c: emit_expression, emit_statement, emit_function_definition, emit_translation_unit, check_type_and_branch"]}
{"id": "C75", "title": "No register of the LLVM text is set twice", "statement": "In the text printed for a unit every register is the result of one instruction only, as LLVM demands, whatever the unit is.", "quantifier": "for every unit and every starting state of the counters", "why_tests_cant": "the size of programs is unbounded", "anchors": ["libs/compiler/llvmgen.c: emit_expression, emit_statement, emit_function_definition, emit_translation_unit"]}
{"id": "C76", "title": "Labels of the LLVM text are put once, and jumps lead to labels of their function", "statement": "In the text printed for a unit no label is put twice, and every label named by a jump or a phi is put in the same function.", "quantifier": "for every unit of the handled forms", "why_tests_cant": "the size and nesting of programs is unbounded", "anchors": ["libs/compiler/llvmgen.c: emit_expression, emit_statement, emit_function_definition, emit_translation_unit"]}
{"id": "C77", "title": "Whatever the syntax tree calls build, its getters answer", "statement": "Expressions, initialisers, declarations and statements made by the calls of AST.c read back by the getters of AST.c exactly as they were made: class, type, category, operator, value, location, number and order of the parts, and each part in its turn, however many other nodes were made, attached, moved or changed in between. Every call on nodes that exist and are used once succeeds and answers a node different from every other node in use.", "quantifier": "for every sequence of calls that uses each node at most once and fills fewer than 2^62 cells", "why_tests_cant": "the parts are in one vector and every attachment rewrites links of nodes made before; the number of nodes and the order of calls is unbounded", "anchors": ["libs/compiler/AST.c", "libs/compiler/AST.h", "libs/utils/tree.c: node_add_child, node_set_child, node_add_arg", "libs/compiler/builder.c: build_cast_expression", "libs/compiler/parser.c: parse_function_definition, parse_init_declarator"]}
{"id": "C78", "title": "The translation unit lists its declarations in order and each reads back", "statement": "When every node made was attached, the translation unit answers as many declarations as functions and global declarations were begun, in that order, and every function reads back its name, parameters, displacement, and body, every declaration its parts.", "quantifier": "for every sequence of calls that uses each node at most once, leaves none of them unused and fills fewer than 2^62 cells", "why_tests_cant": "the number of declarations, their size and the order of calls is unbounded", "anchors": ["libs/compiler/AST.c: translation_unit_get_size, translation_unit_get_declaration, declaration_function_get_name, declaration_function_get_body", "libs/compiler/parser.c: parse_function_definition, parse_translation_unit"]}
{"id": "C79", "title": "The MIPS generator does not give away a register that is in use", "statement": "In the text `encode_to_mips` prints for an expression, no instruction sets a temporary register ($t0-$t7, $s0, $s1) that holds a value not yet used up when the expression begins, and the register of the expression's own value is one that was free; registers asked for with `get_register` and not given back with `free_register` are different from each other; when a function has been printed, the registers it took have been given back.", "quantifier": "every expression tree over int and bool, every state of the generator (registers in use, places of variables, label numbers), every sequence of requests and returns of registers, every translation unit", "why_tests_cant": "Which registers are free depends on the whole text printed before and on the nesting of the expression; a test covers single trees from a fresh state, while a lost register shows only after many others are taken.", "anchors": ["libs/compiler/mipsgen.c:get_register", "libs/compiler/mipsgen.c:free_register", "libs/compiler/mipsgen.c:free_rvalue", "libs/compiler/mipsgen.c:emit_expression", "libs/compiler/mipsgen.c:emit_binary_operation"]}
{"id": "C80", "title": "Labels of the MIPS text are put once and every jump leads to one", "statement": "In the text `encode_to_mips` prints for a unit no label is put twice; every jump and branch leads to a label that is put in the same function, provided `break` and `continue` stand inside of loops or `switch`; every `jal` leads to a label, provided the functions called and `main` are defined in the unit.", "quantifier": "every translation unit over int and bool (all expressions and statements, nested loops and switches, any number of functions), every state of the generator", "why_tests_cant": "Numbers of labels are shared by comparisons, conditions, loops and switches nested in each other without a bound; a clash or a missing label appears only for particular nestings, and tests contain finitely many.", "anchors": ["libs/compiler/mipsgen.c:emit_statement", "libs/compiler/mipsgen.c:emit_label_declaration", "libs/compiler/mipsgen.c:emit_conditional_branch", "libs/compiler/mipsgen.c:emit_unconditional_branch", "libs/compiler/mipsgen.c:emit_switch_statement", "libs/compiler/mipsgen.c:emit_function_definition"]}
{"id": "C81", "title": "The MIPS text computes what the source means", "statement": "When a function of a program, called with some arguments and some values of the globals, gives an answer by the rules of the language, the instructions `encode_to_mips` prints for the unit, started at the function's label with the arguments in $a0-$a3 and above $sp and with the globals at $gp, come to the address in $ra with that answer in $v0 and the new values of the globals in memory; the whole text, started at its first instruction, comes back to where it was started from with the answer of `main` in $v0.", "quantifier": "every unit over int and bool without library calls, every function, all arguments, all values of globals, every depth of recursion, every contents of registers and memory, every place of the stack with enough room", "why_tests_cant": "Programs loop and recurse without a bound, the contents of unused registers and of the stack are arbitrary, and the meaning of a nested expression depends on which registers happen to be taken; a test runs one program with one input from one state.", "anchors": ["libs/compiler/mipsgen.c:emit_expression", "libs/compiler/mipsgen.c:emit_statement", "libs/compiler/mipsgen.c:emit_function_definition", "libs/compiler/mipsgen.c:emit_call_expression", "libs/compiler/mipsgen.c:emit_translation_unit", "libs/compiler/mipsgen.c:pregen"]}
{"id": "C82", "title": "A function of the MIPS text leaves its caller's registers and memory alone", "statement": "A call that comes back does so with $sp, $fp, $gp and $s0-$s7 as they were, and with the argument registers beyond its own arguments unchanged; of memory only the words below $sp that belong to the frames of the call, the words of its own arguments above $sp and the globals may have changed.", "quantifier": "every unit over int and bool without library calls, every function, all arguments, every depth of recursion, every contents of registers and memory", "why_tests_cant": "Whether a saved word is overwritten depends on how deep calls nest and on how many words each frame has; tests look at the answers of single programs and not at every word of memory.", "anchors": ["libs/compiler/mipsgen.c:emit_function_definition", "libs/compiler/mipsgen.c:emit_call_expression", "libs/compiler/mipsgen.c:emit_return_statement"]}
{"id": "C83", "title": "A message marks the word at its position", "statement": "A message about a position in a line (log_error, log_warning, log_note, and the log_auto calls for a location) hands the handler three lines: the message, the line, and marks in which a caret stands below the first character of the word the position is in and tildes below its other characters; tabs in front stay tabs, every other character in front is one blank, whatever number of octets the characters have and whichever octet of a character the position is. A character that is not in a word is marked alone; a position behind the line gives no marks. The text fits in 4095 octets (longer ones overrun the buffer).", "quantifier": "all messages of one line, all lines of valid characters, all positions in the text", "why_tests_cant": "Words, tabs and characters of one to four octets combine freely and the position may be any octet; a test compares a few lines.", "anchors": ["libs/utils/logger.c:splice", "libs/utils/logger.c:literal", "libs/utils/logger.c:length", "libs/utils/logger.c:log_main", "libs/utils/logger.c:log_auto", "libs/utils/locator.c:loc_get_tag", "libs/utils/locator.c:loc_get_index"]}
{"id": "C84", "title": "Each logging call calls exactly one handler once", "statement": "In any sequence of logger calls, each call that logs calls one handler once: with right arguments the handler last set for its kind (a NULL handler is refused and changes nothing), with the tag given and a text beginning with the message; with wrong arguments (NULL, several lines, no location) the handler last set for errors, with the tag \"logger\" and a complaint. Calls that set a handler call none.", "quantifier": "all sequences of calls of logger.h, all arguments", "why_tests_cant": "The handlers are shared state changed by any earlier call; tests set one handler and log one message.", "anchors": ["libs/utils/logger.c:check_arg", "libs/utils/logger.c:log_main", "libs/utils/logger.c:log_auto", "libs/utils/logger.c:set_error_log", "libs/utils/logger.c:log_system_error"]}
{"id": "C85", "title": "The console shows the message with exactly the marked word coloured", "statement": "The handlers that are there from the beginning print tag, kind, message, line and marks, each octet once and in order; the colour of the kind is on the name of the kind, on the marked word in the line and on the marks, and on nothing else; the console is left with the default colour. The text fits in 4095 octets.", "quantifier": "all three kinds, all tags and messages of one line, all lines of valid characters, all positions", "why_tests_cant": "Output to the console is not looked at by tests, and the two pointers that walk through line and marks agree or not depending on the width of every character.", "anchors": ["libs/utils/logger.c:print_msg", "libs/utils/logger.c:default_log", "libs/utils/logger.c:set_color"]}
{"id": "C86", "title": "A place written into the preprocessed text is found again from everywhere behind it", "statement": "A comment with a path without blanks and a line, printed into a text, is found by a search from any position behind it up to the next such comment: the search answers the path, the line of the comment plus the number of lines in between, the column and the text of the line, and the tag path:line:column counts the column in characters. A comment of a replacement answers from everywhere behind it the line and the column it was made with. In a text without such comments none is found, if the text does not begin with ' #' or '/ #'.", "quantifier": "all texts in front, all paths without blanks, all lines and columns, all lines in between without such comments, all positions", "why_tests_cant": "The search walks backwards through text of any content; a test covers a few positions, while the count depends on what the octet at the start of the line is, which tests of usual lines do not see.", "anchors": ["libs/utils/commenter.c:cmt_search", "libs/utils/commenter.c:cmt_reverse", "libs/utils/commenter.c:cmt_parse", "libs/utils/commenter.c:cmt_to_string", "libs/utils/commenter.c:cmt_get_tag", "libs/utils/commenter.c:cmt_get_code_line", "libs/utils/commenter.c:cmt_get_path"]}
{"id": "C87", "title": "The listing of the code shows every cell once, jumps lead to its lines, and its text says what the memory is", "statement": "The listing the compiler writes of the memory it generated shows every cell of the memory in exactly one line and in order, the number in front of a line is the address of its first cell, the destination shown in every jump and in every beginning of a function is the number of a line, and so is the address the table of functions has for every function, where the line shows the beginning of a function. Two programs with the same listing have the same memory.", "quantifier": "all programs of the modelled language, all nestings of statements and expressions, all literals and strings", "why_tests_cant": "The lines are cut by a table of 198 instructions with their numbers of operands, and one wrong number, or data taken for an instruction, shifts everything behind it; a test would have to place each instruction and each constant of the source at each position.", "anchors": ["libs/compiler/writer.c:write_codes", "libs/compiler/writer.c:write_instruction", "libs/compiler/writer.c:elem_get_name", "libs/compiler/codegen.c:encode_to_vm"]}
{"id": "C88", "title": "A stream reads from and writes to what was set last", "statement": "For every number of `universal_io` streams and every sequence of calls of the functions of uniio.h, uniprinter.h and uniscanner.h (setting a file, a text or a function, seeking, swapping, closing, clearing, extracting, erasing, printing and scanning an octet), whatever fopen, malloc and realloc answer: no NULL function pointer or file is used; a stream reads octet by octet, from the position it tells, from the source that was set last, and prints to the sink that was set last; a failed setting, a close or a clear leaves it without source or sink and it then answers so; a text printed to a buffer is appended whole or, only if memory is refused, not at all; input and output and different streams never influence each other, and a swap exchanges exactly two of them. (Precondition: a buffer size whose successor does not wrap.)", "quantifier": "all numbers of streams, all sequences of calls, all contents, all answers of the system", "why_tests_cant": "the state has twelve fields per stream, several of which stay stale after a close; only an invariant over all interleavings of calls and failures shows that no stale field is ever used", "anchors": ["libs/utils/uniio.c:261-457", "libs/utils/uniio.c:460-645", "libs/utils/uniprinter.c:22-37", "libs/utils/uniscanner.c:23-38"]}
{"id": "C89", "title": "Files and output buffers have exactly one owner and none is left behind", "statement": "For every sequence of calls on any number of `universal_io` streams: a file is closed exactly once, when its stream is set to something else, closed, cleared or erased, and is neither read nor written nor closed after that; a block of an output buffer is freed, or moved by growing, or handed to the user, once each and never after it was given away; at every time the open files and the allocated blocks are exactly those of the streams that answer that they are files or buffers; and after io_erase of every stream nothing is open and nothing is allocated that the user has not taken.", "quantifier": "all numbers of streams, all sequences of calls and swaps, all failures of the system", "why_tests_cant": "leaks and double closes depend on the history of swaps, failures and re-settings of all streams together", "anchors": ["libs/utils/uniio.c:261-457", "libs/utils/uniio.c:460-645", "libs/utils/uniio.c:161-185"]}
{"id": "C90", "title": "Names of functions in the LLVM text are the identifiers in Latin letters", "statement": "When LLVM text is produced, the name of every function of the user is its identifier spelled letter by letter by the passport transliteration of the Russian alphabet, other characters kept; so for an identifier of at most 1023 characters the printed name consists only of Latin letters, digits and underscores, begins with a letter or an underscore if the identifier does not begin with a soft sign, equals the identifier when that has no Russian letters, and the names of library functions are printed as they are.", "quantifier": "for every identifier of Latin and Russian letters, digits and underscores of at most 1023 characters, and every function reference", "why_tests_cant": "The identifiers are unboundedly many; tests transliterate a handful of names, which says nothing about every sequence of letters, about every letter of the table in every position, nor about the longest name that still fits the fixed array.", "anchors": ["libs/utils/utf8.c:char_transliteration", "libs/utils/utf8.c:utf8_transliteration", "libs/compiler/llvmgen.c:func_name_to_io"]}
{"id": "C91", "title": "Different functions have different names in the LLVM text", "statement": "Two functions of the user with different identifiers are printed under different names in the LLVM text, so that the text defines and calls the function that the program means.", "quantifier": "for every pair of identifiers of at most 1023 characters", "why_tests_cant": "It is a statement about all pairs of identifiers; no finite set of pairs can show that the spelling is one to one.", "anchors": ["libs/compiler/llvmgen.c:func_name_to_io", "libs/utils/utf8.c:utf8_transliteration"]}
{"id": "C92", "title": "The flags -D define exactly the macros they name", "statement": "A command line with flags -Dname, -Dname=value and -Dname followed by another character defines the macros in the order of the flags: after it every lookup and every directive finds these definitions and no others; a flag without a name, with a name that does not begin with a letter, or with a name that is already defined makes the answer -1 and stops the reading, keeping what was defined before; flags of other kinds change nothing. The names are below 1024 characters.", "quantifier": "for every list of flags in UTF-8 below four gigabytes in all, and every later history of directives and lookups", "why_tests_cant": "Command lines and the histories behind them are unboundedly many, names have characters of one or two octets in every mixture, and a wrong step over the octets shows only at particular names; tests try a few flags.", "anchors": ["libs/macro/macro.c:ws_parse_name", "libs/macro/macro.c:ws_parse", "libs/macro/storage.c:storage_add_by_utf8", "libs/macro/storage.c:storage_set_by_index"]}
{"id": "C93", "title": "The LLVM text says exactly what the generator made", "statement": "The text printed for a unit is accepted by a reader of LLVM text and read back as the same functions in the same order: the names, the results and parameters, and every instruction with its registers, labels, constants, types and arguments; so two different units never have the same text. Holds for units without floating values in which different functions have different non-empty names of Latin letters, digits and underscores.", "quantifier": "for every list of functions with every list of instructions that the generator makes for scalar trees, every number and every name", "why_tests_cant": "Operand forms, types, numbers and names combine without bound and a missing blank or comma in one format shows only for the instruction that uses it; a test compares a few texts and does not show that the text can be read in one way only.", "anchors": ["libs/compiler/llvmgen.c:to_code_load", "libs/compiler/llvmgen.c:to_code_operation_reg_reg", "libs/compiler/llvmgen.c:type_to_io", "libs/compiler/llvmgen.c:operation_to_io", "libs/compiler/llvmgen.c:emit_call_expression", "libs/compiler/llvmgen.c:emit_function_definition", "libs/compiler/llvmgen.c:emit_switch_statement"]}
{"id": "C94", "title": "String constants keep their bytes in the LLVM text", "statement": "Every string of the program that has neither a quote nor a backslash is declared in the LLVM text under its number, with its bytes, new lines included, followed by one zero, and with a size that counts all of them; so different lists of strings have different texts.", "quantifier": "for every list of strings of bytes without quotes and backslashes", "why_tests_cant": "Strings are unboundedly many and the escapes of LLVM depend on the neighbouring characters; tests try a few strings.", "anchors": ["libs/compiler/llvmgen.c:strings_declaration", "libs/compiler/syntax.c:strings_length"]}
{"id": "C95", "title": "MIPS text reads back as the instructions it was printed for", "statement": "For every sequence of instructions whose operands are registers and constants where an assembler wants them, with comments and empty lines anywhere in between, the characters that mipsgen.c prints (names of instructions, registers and labels, commas, displacements) are read by an assembler as exactly these instructions, so that different sequences have different texts. The text of every unit over int and bool in which operators do not have a constant as their first operand, and in which there are no strings, library functions and %=, consists of such instructions. For `1 + x` and for the value of `%=` the printed line is refused.", "quantifier": "all lists of printed lines; all units of the fragment, all states of the encoder with variables in their places", "why_tests_cant": "Tests look at the text of a few programs, or only at whether the compiler stops; two registers or labels printed alike, or a number printed in a form that reads as another, show only in programs that use both.", "anchors": ["libs/compiler/mipsgen.c:mips_register_to_io", "libs/compiler/mipsgen.c:instruction_to_io", "libs/compiler/mipsgen.c:to_code_R_I_R", "libs/compiler/mipsgen.c:emit_label", "libs/compiler/mipsgen.c:emit_conditional_branch"]}
{"id": "C96", "title": "String constants keep their bytes in the MIPS text", "statement": "The strings of a program, if they have no quotes and backslashes and a byte of the same line behind every %, are declared in the MIPS text so that an assembler reads them: no label is declared twice, every label has one piece with a zero behind it, and the pieces under the labels that leave i when divided by the number of strings are, one after the other, the i-th string with new lines included. So different strings have different texts.", "quantifier": "for every list of strings of bytes without quotes and backslashes and with a byte of the same line behind every %, with labels that fit into size_t", "why_tests_cant": "Labels are made of the number of a string, the number of a piece and the number of strings; that no two of them meet for any list of strings is no matter of examples.", "anchors": ["libs/compiler/mipsgen.c:strings_declaration", "libs/compiler/mipsgen.c:emit_label_declaration"]}
{"id": "C97", "title": "printf in MIPS text writes what its format means", "statement": "The calls of the library that are made for a call of printf, one per argument and one for the end of the format, each with the label of a piece of the format, write together what the format with all arguments means, after what computing the arguments writes.", "quantifier": "for every list of strings, every format among them and all arguments as many as it asks for", "why_tests_cant": "The labels used by a call have to be those under which the pieces of its own format were declared, for any number of strings, conversions and arguments.", "anchors": ["libs/compiler/mipsgen.c:emit_printf_expression", "libs/compiler/mipsgen.c:strings_declaration"]}
{"id": "C98", "title": "Types are spelled so that they can be told apart", "statement": "For every type made of basic types, pointers, arrays, functions, structures with named members and const in front of basic types, structures and pointers, write_type_spelling puts a text into the buffer that a reader of the spelling takes as exactly this type, so that two types that are spelled alike are the same type; write_type writes this text if it has fewer than 128 characters.", "quantifier": "for every table of types and every number in it that stands for such a type, of any depth, with any number of parameters and members", "why_tests_cant": "Types nest without bound; whether two different ones ever share a spelling is not settled by looking at some of them.", "anchors": ["libs/compiler/writer.c:write_type_spelling", "libs/compiler/writer.c:write_type"]}
{"id": "C99", "title": "The file with the tree, read as an outline, is the tree", "statement": "The file that write_tree writes, read as an outline with two spaces for a level, is the tree of the program: a title, and below it every node on one line, under the node it belongs to, in the order of the parts in the source, with its class, name, number, operator, value, type and location as text. So programs with different trees of lines have different files, and the level of the writer after a declaration is what it was before. This holds unless a name, type or literal has the end of a line in it (for a character literal the lowest byte of its code counts) or a declaration marks an error. Counterexamples are recorded: parts of 'for' that are left out are not marked, so that for(;x;) and for(;;x) give the same file; character and string literals can end the line; a declaration that marks an error is not indented.", "quantifier": "all trees of any depth and width built of the 13 classes of expressions, 5 of declarations and 14 of statements, all names, types, numbers and literals without the end of a line", "why_tests_cant": "A test writes one tree; that the nesting can be read off the indentation for every tree needs induction over trees of any depth, with the level of the writer kept by every function that writes a node.", "anchors": ["libs/compiler/writer.c:write_tree", "libs/compiler/writer.c:write_translation_unit", "libs/compiler/writer.c:write_declaration", "libs/compiler/writer.c:write_statement", "libs/compiler/writer.c:write_expression", "libs/compiler/writer.c:write_line"]}
{"id": "C100", "title": "The message about a directive without its beginning names the right directive", "statement": "When #elif, #else, #endif, #endm or #endw is found without the beginning of its block, in any of the spellings kw_add knows, the message names exactly the directive that begins such a block (#if, #macro, #while) in the same language and in letters of the same size; when #elif or #else is found behind #else, the message names #else in the same language and size. Nothing behind the end of the spelling is read though kw_without looks at fixed places of it.", "quantifier": "all 64 spellings in the table of directives: 20 that end or continue a block, 8 of them spellings of #elif and #else", "why_tests_cant": "kw_without guesses from the octets 1, 4 and 11; that no spelling is taken for another one and no read leaves the text has to be checked for every spelling of the table, among them those in two languages and two sizes, and the table may grow.", "anchors": ["libs/macro/keywords.c:kw_without", "libs/macro/keywords.c:kw_after", "libs/macro/keywords.c:kw_add", "libs/macro/error.c:get_error"]}
{"id": "C101", "title": "64-bit integers and doubles kept in records of a hash table come back", "statement": "In every table made by calls, when the record of a key has the place, hash_set_int64 and hash_set_double store the value exactly as hash_set would and answer the index of the record, and hash_get_int64 and hash_get_double then give the same 64 bits back. When the record has no such place, the table is left as it is and the getters answer LLONG_MAX and DBL_MAX; the setters should then answer SIZE_MAX.", "quantifier": "all histories of calls below 2^60 cells, all keys but the reserved one, all places in a record, all 64-bit values", "why_tests_cant": "A test stores some values in some tables; that the neighbours, links and amounts of all records survive, for every history and value, follows only from the invariant of the table. The wrong answer on refusal comes from comparing a size with DBL_MAX or LLONG_MAX and is not noticed by tests of successful calls.", "anchors": ["libs/utils/hash.c:hash_set_double", "libs/utils/hash.c:hash_set_int64", "libs/utils/hash.c:hash_get_double", "libs/utils/hash.c:hash_get_int64", "libs/utils/vector.c:vector_set_double", "libs/utils/vector.c:vector_get_double"]}
{"id": "C102", "title": "Suffixes of integers in expressions of directives", "statement": "An integer in #if, #elif, #while or #eval that is followed by a letter is accepted exactly when the name behind it is an integer suffix: u, l or ll, or u together with l or ll in any order, in small or capital letters. Every suffix of the C standard is accepted, everything else, of any length and in any alphabet, is refused, and no byte behind the end of the name is read.", "quantifier": "all byte strings that can stand behind the digits", "why_tests_cant": "A test tries some suffixes; that no other string of any length is accepted, and that the indices into the string stay inside it for every length, is a statement about all strings.", "anchors": ["libs/macro/parser.c:parse_suffix", "libs/macro/parser.c:parse_number"]}
{"id": "C103", "title": "LLVM modules declare every structure once with its members in order", "statement": "At the head of the LLVM module every structure type of the program is declared exactly once, as %struct_opt with the number of the type, with the types of its members in order, and nothing that is not a structure is declared.", "quantifier": "all histories of building types, all structures", "why_tests_cant": "The declarations are found by looking at every cell of the table of types, so whether they are right depends on everything that was ever put into the table; tests see a few small tables.", "anchors": ["libs/compiler/llvmgen.c:structs_declaration", "libs/compiler/syntax.c:type_is_structure", "libs/compiler/syntax.c:type_structure"]}
{"id": "C104", "title": "64-bit values and doubles added to a vector are removed in reverse", "statement": "vector_add_int64 and vector_add_double put values behind any vector at the next indices and leave what was there; removing as many with vector_remove_int64 or vector_remove_double gives the same 64 bits back, from the last to the first, and the vector as it was.", "quantifier": "all vectors, all lists of 64-bit values of any length", "why_tests_cant": "A test adds a few values; that every list of values of any length comes back from any vector is shown by induction over the list.", "anchors": ["libs/utils/vector.c:vector_add_int64", "libs/utils/vector.c:vector_add_double", "libs/utils/vector.c:vector_remove_int64", "libs/utils/vector.c:vector_remove_double"]}
