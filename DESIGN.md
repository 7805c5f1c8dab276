# Formal model of RuC in Lean 4

## What is modelled

The pinned sources of RuC in `/repo` (C). The build configuration modelled is the default one:
`ITEM = -64`, so `item_t` is `int64_t`, `ITEM_MAX` is 2^63-1, one 64-bit or double value takes one cell,
`size_t` is 64 bits wide, `NDEBUG` is set (asserts are not relied on).

Every Lean definition that models code carries a comment with the file and lines it models, and says where it simplifies.

## Modelling conventions

* `item_t` values are `Int`; casts and wrap-around are written out where the code performs them.
* `size_t` values are `Nat`; `SIZE_MAX` is `2^64-1`; where the code computes `x - 1` or `x + 1` on `size_t` and this can wrap, the wrap is written out.
* Memory of a C array is a list of cells; cells that were allocated but never written are a distinct `none`, so reading them is visible.
* Undefined behaviour (out-of-bounds access, reading uninitialised memory, division by zero, bad shift) is a distinct outcome of the model (`none` / `.ub`), never assumed away.
* Allocation failure is an oracle argument of the operations that allocate.
* Functions that mutate through a pointer return the new state.
* A loop without an obvious bound takes fuel; theorems then prove that some fuel suffices (termination) or exhibit divergence.

## Layout

`lean/Verif/<Area>/Model.lean` holds the model, `.../Lemmas.lean` the helper lemmas, `.../Props.lean` the property theorems with, beside each,
an `example` that its hypotheses are met by a concrete non-trivial case. Specs used in the statements are written in `.../Spec.lean` or at the top of `Props.lean`.

## Trusted base

* The Lean 4.33.0 kernel.
* Axioms: at most `propext`, `Classical.choice`, `Quot.sound` (checked with `#print axioms`).
* That the model is a faithful reading of the cited lines. The code is not run.
* The virtual machine that runs the emitted code is not part of `/repo`; its instruction semantics is an assumption stated in the model.

## Plan per property

| id | model | proof |
|----|-------|-------|
| C01 | `vector.c` with allocation oracle, cells as `Option Int` | refinement to `List Int`, induction over operation lists |
| C02 | same model, oracle refuses | each failing step is the identity; part of the refinement |
| C03 | same model, every raw access goes through a checked `peek/poke` | reads/writes never `ub` for the plain accessors; negation for the 64-bit accessors at SIZE_MAX |
| C04 | `stack.h` over the vector model | refinement to `List Int` |
| C05 | `hash.c` over a cell array | abstraction to association list, chain invariant, induction over histories |
| C06 | same | record-stability lemma lifted over histories |
| C07, C08 | `map.c`: buckets, key storage, chains | abstraction to list of (key, value), invariant, induction |
| C09 | `strings.c`: buffer with uninitialised cells, index vector, reallocation | refinement to `List (List UInt8)` |
| C10, C11, C12 | `tree.c` on a flat cell array | representation predicate `array ⊨ rose tree`, operations preserve it |
| C13, C14, C15 | `utf8.c` on `Nat`/bytes | bit arithmetic with omega; whole tables by kernel `decide`, lifted to strings by induction |
| C16, C17 | `item.c` | arithmetic proofs over all values, cases over the eight targets |
| C18, C19 | `workspace.c` | `ws_unix_path` loop on byte lists against a path-resolution spec; list refinement |
| C20, C21 | `uniio.c`, `uniprinter.c`, `uniscanner.c` for buffers | refinement to list concatenation / position arithmetic |
| C22–C25 | `lexer.c` on lists of code points | longest-match spec over the punctuator table; progress measure; value of digit strings; comment spec |
| C26 | `parse_RHS_of_binary_expression` on operator/operand tokens | result respects precedence, yield preserved, uniqueness of such a tree |
| C27 | `skip_until` on token lists | termination, stop condition; nested-bracket claim |
| C28 | statement parser with its two flags | induction over the parser run |
| C29, C30 | type table of `syntax.c` | table invariant, interning both directions |
| C31 | identifier table of `syntax.c` | restoration over balanced block histories |
| C32 | displacement allocation of `codegen.c` | invariant over nested scopes |
| C33 | folding in `builder.c` | for all operands, against 64-bit semantics, with `ub` outcomes |
| C34 | type rules of `builder.c` | decision-table theorems over all types |
| C35 | statement emission with back-patching | equality with direct emission that knows all targets |
| C36 | forward-call chains | invariant: chain lists exactly the unresolved call cells |
| C37 | expression/statement emission and a stack machine | simulation, against a big-step source semantics |
| C38 | instruction tables | whole-table kernel `decide` |
| C39 | `emit_void_expression` | stack effect of emitted code |
| C40 | `computer.c` | shunting-yard correctness against an expression-tree evaluator |
| C41 | `storage.c` over abstract map/hash/strings proved in C05–C09 | refinement to name → definition |
| C42, C43 | directive structure of `macro/parser.c` | denotational semantics of nested blocks |
| C44, C45 | `linker.c` | history invariant; text equation |
| C46 | local tables in `parser.c` | write-index bound; negation past the bound |
| C47, C48 | `compiler.c`, `reporter.c` | decision tables; counter induction |

(C49 and those behind it were added later, see `properties.jsonl`; their models are those of the lexer, statements, scopes, instruction tables, conditional blocks, the linker, the locator, the text between the directives, macros with arguments, the LLVM and MIPS generators, the calls of the syntax tree, and the logger.)

## Which code is modelled, and what each model leaves out

| area | code | left out or simplified |
|------|------|------------------------|
| `Vector` | `libs/utils/vector.c`, `stack.h` | nothing but the contents of memory after `realloc` failure, which stay as they were |
| `Item` | `libs/utils/item.c` | doubles are abstract; only the 64-bit host item type |
| `Hash` | `libs/utils/hash.c` | the vector below is taken by its sequence meaning (C01); allocation granted |
| `Utf8` | `libs/utils/utf8.c` | locale output functions |
| `Map` | `libs/utils/map.c` | one allocator answer per call instead of one per allocation inside the call |
| `Strings` | `libs/utils/strings.c` | nothing; each allocation has its own answer |
| `Tree` | `libs/utils/tree.c` | allocation granted |
| `Workspace` | `libs/utils/workspace.c` | allocation granted; `access()` is a parameter |
| `Io` | `libs/utils/uniio.c`, `uniprinter.c`, `uniscanner.c` | buffers only; `vsnprintf` is a parameter (a print is the text it formats to) |
| `Lexer` | `libs/compiler/lexer.c` | locations, warnings and values of floating literals; the representation table is a function from names to references |
| `Expr`, `Skip`, `Stmt` | `libs/compiler/parser.c` | a run ends at the first reported error; type checks belong to `Builder`; what a name stands for does not change inside one statement; definitions of structures, enumerations and `typedef` inside bodies |
| `Types` | type table of `syntax.c` | fields of an enumeration are added at once |
| `Scope` | identifier table of `syntax.c` | memory granted; blocks are closed in the order the parser closes them; labels |
| `Instr` | `instructions.h`, `instructions.c` | nothing |
| `Builder` | `builder.c`, `AST.c` accessors | doubles are abstract; subscripts, members and calls are opaque operands (see `Checks`); warnings and locations |
| `Checks` | the rest of `builder.c`: subscripts, calls, `print`, `printf`, members, conditions, `return`, declarators; `type_requires_initialization` | nodes given to a function are correct ones; statements are only checked, not built; warnings and locations |
| `Codegen` | `codegen.c` | see the header of `Codegen/Model.lean`; displacements are unbounded integers |
| `Machine` | none of `/repo`: the machine is not in the repository | **assumed** semantics of the emitted instructions, written in `Machine/Model.lean`; no floating, structures, arrays, pointers, library functions |
| `Tables` | the local tables of `parser.c` | tokens and messages |
| `Driver` | `compiler.c`, `reporter.c` | the phases are abstract answers |
| `Computer` | `libs/macro/computer.c`, expression part of `macro/parser.c` | the two stacks are lists; scanning of the text and macro replacement inside an expression |
| `Storage` | `libs/macro/storage.c` over the models of `Map`, `Hash`, `Strings` | memory granted |
| `Cond` | block directives of `macro/parser.c` | line level: the effect of a single line is a parameter |
| `Linker` | `libs/macro/linker.c`, `macro.c`, `#include` in `macro/parser.c` | scanning of the quoted name, `-D` flags (see `Flags`) and `#line` marks; contents of a file is a function of its path; `access("")` fails |
| `Locator` | `libs/utils/locator.c` on a buffer | inputs that are files; the path of the input itself is a parameter; `loc_get_tag`, `loc_get_index` (see `Logger`); printing answers the characters printed |
| `Text` | copying, comments, strings and replacement of macros without arguments in `macro/parser.c` (`skip_*`, `parse_hash`, `parse_until`, `parse_identifier`, `parse_replacement`, `parse_block`, `parser_preprocess`) over the locator | directives and macros with arguments are the outcome `none`; the input is a list of characters (C21); what is written to the output and the location is first a list of events |
| `Subst` | macros with arguments in `macro/parser.c`: definitions (`parse_args`, `parse_operator`, `parse_content`, `parse_context`), calls (`parse_brackets`, `parse_values`, `parse_observation`, `parse_replacement`) | the storages for names of parameters and for values are lists (C41); what `parser_preprocess` makes of an argument is any function `expand`; locations and messages about comments that are not ended are left out; `#eval` in a body is the outcome `eval`; the fixed buffer for the masked names is not modelled |
| `Llvm` | `llvmgen.c`: expressions, statements, functions and units over `int`, `bool` and strings as arguments; `check_type_and_branch`; the counters of registers, labels and blocks; `switch` | characters, floating values, pointers, arrays, structures, files, and with them the answers `AMEM`, `ANULL` and the location `LMEM`; declarations of globals, strings and library functions at the head of the text; the text is a list of instructions; the tree is given with its types |
| `Mips` | `mipsgen.c`: registers in use (`get_register`, `free_register`, `free_rvalue`), expressions, statements, functions and units over `int` and `bool`, `switch`, calls of functions of the program, the places of variables and parameters, the beginning of the text | characters, floating values, pointers, arrays, structures, strings, library functions, comments, directives and the runtime at the end of the text; the text is a list of instructions; the tree is that of `Llvm` |
| `Ast` | `AST.c`, the calls that make nodes and the getters, over the vector of cells of `tree.c`; the nodes of functions and globals in `compiler/parser.c`; the literal case of `build_cast_expression` | enumeration constants with values of their own; `node_copy`, `node_save`; a `double` is one cell; fewer than 2^62 cells; lists of initialisers are not empty; memory granted |
| `Logger` | `logger.c` with `loc_get_tag`, `loc_get_index` of `locator.c` | the console of Windows; handlers are numbers and their calls a list; the text made by `splice` is looked at as a whole when its size is compared with the buffer |
| `Commenter` | `libs/utils/commenter.c` | buffers are given large enough; `NULL` for a comment or a buffer; the octet behind the text is 0; texts below 2^61 octets; `%zu` as in `Locator` |
| `Listing` | `elem_get_name`, `write_instruction`, `write_codes` of `compiler/writer.c`, over the memory of `Codegen` | files; `%f` is a parameter; the names in the table are the ASCII texts of the code |
| `Streams` | the switching of `uniio.c` (sources, sinks, positions, swaps, extraction, erasing), `uni_printf`, `uni_scanf` with `%c` | several conversions in one format; `in_get_path`; what a user's function reads; a file does not change while it is read; `fseek` to the start and `vfprintf` do not fail; files and blocks are numbered afresh; the largest block is 2^63 - 1 octets |
| `Names` | `char_transliteration`, `utf8_transliteration` of `utf8.c`; `func_name_to_io` of `llvmgen.c` | NULL arguments |
| `Flags` | `ws_parse_name`, `ws_parse` of `macro.c`, over `Storage` | `_WIN32`; texts of messages |
| `LlvmText` | what `llvmgen.c` prints for the instructions of `Llvm` and for strings (`to_code_*`, `type_to_io`, `operation_to_io`, `strings_declaration`, headers of functions); the spec is a reader of LLVM text | floating values, arrays, structures, declarations of the library and of globals; types and lengths come from a table |
| `MipsText` | what `mipsgen.c` prints for the instructions of `Mips` (`mips_register_to_io`, `instruction_to_io`, `to_code_*`, `get_bin_instruction`, `rvalue_to_io`, `lvalue_to_io`, labels and branches), with comments and empty lines in between; the spec is a reader of assembler lines | directives, strings (see `MipsStrings`), the runtime, lines for floating values except those that keep registers; the range of constants; for `!` and `abs` of a constant the code prints the register with the number of the constant, the model prints the constant |
| `MipsStrings` | `strings_declaration` of `mipsgen.c` and the labels used by `emit_printf_expression`; the spec is a reader of `.ascii` lines and what `printf` of the library writes | the instructions that bring arguments into registers; the start of the program behind the strings; how a value is written is a parameter |
| `Spelling` | `write_type_spelling`, `write_type` of `compiler/writer.c`, over the table of `Types`; the spec is a reader of spellings | names of members are a parameter; the recursion of the code has a bound, none for types that contain themselves; the type that marks an error |
| `Outline` | `write_tree` and the functions that write expressions, declarations and statements of `compiler/writer.c`; the spec is a reader of outlines and for every node its line and its parts | a tree is an inductive type, not cells; all nodes are there and have a known class; names, spellings of types and digits of `%f` come with the tree |
| `Pairs` | `kw_without`, `kw_after` of `keywords.c` and the two messages made with them in `macro/error.c`, over the table of directives of `Storage` | the directive at the front of the message; the other messages |
| `Wide` | `hash_set_int64`, `hash_set_double`, `hash_get_int64`, `hash_get_double`, the functions by index under them and `vector_set_int64`, `vector_set_double`, `vector_get_int64`, `vector_get_double`, over `Hash` and `Item` | cells of less than 64 bits; a `double` is its bits |
| `Suffix` | `parse_suffix` of the macro parser | the name is given as its bytes, `storage_search` is not called |
| `Declared` | `structs_declaration` of the LLVM generator, over `Types` | the text of a type is not spelled, a field is the type written or the word `here` |
| `Push` | `vector_add_int64`, `vector_add_double`, `vector_remove_int64`, `vector_remove_double`, over `Item` | cells of less than 64 bits; a `double` is its bits; memory does not run out |

Not modelled at all: `error.c` (texts of messages, but for two, see `Pairs`), `libs/preprocessor` (not built).

Reading the instructions of the machine. The semantics that `Machine/Model.lean` assumes is the one their names and their use in `codegen.c` suggest (operands on a stack of cells, displacements relative to the frame, comparisons give 0 or 1, conditional jumps take their operand off, a call keeps the frame and the return address apart from the stack). Theorems C37 and C39 are statements about that machine.

Reading LLVM. `Llvm/Spec.lean` gives the printed instructions the meaning of the LLVM Language Reference Manual: arithmetic of 32 bits where overflow under `nsw`, division by zero and too large shifts are undefined, `alloca` makes a cell of the function's stack, `stackrestore` gives back the cells made since the matching `stacksave`, `phi` depends on the block that was left, `%0` is the first block of a function without parameters. C74 is a statement about that machine. What the library functions do is any function of arguments and shared state.

Reading MIPS. `Mips/Spec.lean` gives the printed instructions the meaning an assembler gives them: constants may have 32 bits, `add`, `addi` and `sub` stop when they overflow, `mul` keeps the low word, `div` and `rem` stop on division by zero and on overflow, memory is words at addresses divisible by four, an operand that has to be a register is refused if it is none; instructions have their numbers in the text as addresses, and no instruction stands in a delay slot.

## Statements that carry preconditions

Where the code breaks the plain English claim on inputs a user can avoid, the statement in `properties.jsonl` names the precondition, and the violating case is a theorem of its own: C10–C12, C22, C24, C35, C36, C34, C41, C44, C45, C46, C59–C65, C67–C71, C73, C83, C85, C86, C88, C90, C92.
Where it breaks the claim on ordinary inputs, the claim stays as it is, its status is `partial`, and the negation is proved beside it: C03, C13–C16, C18, C23, C25, C27, C29, C30, C33, C37–C40, C52, C53, C55, C56, C72, C74, C76, C79, C81, C82, C86, C87, C91.

## Defects of the code found (each proved as a theorem)

Utilities
* 64-bit and double accessors of vectors at index `SIZE_MAX` read outside the vector; `stack_peek_int64` on an empty stack does so.
* `vector_increase` with a huge size wraps the byte count.
* `item_store_int64` for 64-bit targets shifts by 64; cells of unsigned 64-bit targets leave the reported range; `item_restore_double` maps `LLONG_MAX` to `DBL_MAX`.
* `utf8_to_string` reports one octet too few for U+0800–U+0FFF and U+10000–U+3FFFF.
* Names of functions in the LLVM text are not one to one (`мой`, `мои`); the function `ь` has an empty name, `ь1` the name `1`; an identifier of more than 1023 letters `щ` overflows the array of `func_name_to_io`.
* Strings in the LLVM text: a quote is printed as it is and ends the constant; a backslash with two hexadecimal digits behind it becomes one byte while the size counts three; a backslash at the end swallows the zero.
* A name of 1024 characters or more in a flag `-D` overflows the array of `ws_parse`.
* Octet 0x98 of cp1251 does not survive the round trip.
* Map: an ill-formed key is read past its end; keys U+21000 and U+1000 collide.
* Strings: length is wrong after a refused allocation; an empty vector is registered.
* Tree: an argument added to a node that is not the last, a swap of a node with its descendant, the next node of a childless root.
* `ws_unix_path`: doubled separators, paths above the root, trailing separators after a return to the start, overlong paths.
* `out_set_buffer(SIZE_MAX)` wraps; a character cut at the end of the input is not put back.

Lexer and parser
* A string literal left open at the end of the text makes the lexer loop for ever; an exponent of 2^63 or more overflows; binary literals of 2^61 and more become floating.
* `/**/` and comments ending in an odd number of asterisks are not recognised as closed; `/*/` is taken as a whole comment.
* `skip_until` stops inside nested brackets of the same kind, at its own brackets, and never at a comma.
* Tables: overrun at the 50th enumerator, at the 98th parameter, at the 49th member; an unwritten cell is read for an enumerator whose value is no expression.
* The error counter wraps at 2^64.

Types, names, checks
* `const` of any two built-in types other than `int` get one index; so do `const` of two enumerations with the same first cell.
* A refused repeated declaration leaves an unwritten record that the end of the block reads.
* A function whose type index is 1000 or more has no number; a function number of 1000 or more is taken for a type name.
* `1 && NULL` folds according to the source position; `5/0` in a constant divides by zero in the compiler; a `const` variable may be incremented.
* `void *p;` is refused, since the check for `void` comes before the star; a function with the result `void *` may return a floating number.
* `printf` with 20 or more arguments formats its message without the argument it needs.
* In a `const` structure two members of different built-in types get one `const` type.
* A variable named `main` counts as the main function, so a program without one passes the last check.

Code
* `instruction_to_void_ver` misses 9001–9006 (direct `%=`, `<<=`, `>>=`, `&=`, `^=`, `|=`).
* `exit` is compiled to the instruction that does nothing.
* A link of a call chain whose value lies in the range of instruction codes is rewritten as if it were one.
* A function passed as an argument before its definition stays number 0.
* `5 || 0` gives 5; `1 + (2, 3)` gives 5.
* A `switch` does not fall through: behind the statements of a label the test of the next label is made again (`C37_fall_through_witness`). Labels behind `default` are not looked at (`C37_default_first_witness`). The value of a `switch` stays on the stack (`C37_switch_leaves_witness`).
* Statements that are pure expressions, `x %= 3`, ternaries, `a && (b = 1)`, calls with a value leave their value on the stack; in a loop the stack grows without bound.

Macro processor
* `!` is computed upside down; `-(1)` gives `ITEM_MAX`; `-(-(1))` is refused; `-(1)+2` overflows; `0 && 1/0` divides by zero.
* A redefinition with an empty value keeps the old value; `#undef` of an unknown name spoils another entry.
* A misplaced end inside a skipped block is reported but the run succeeds; a loop runs 32769 times before the limit is reported.
* The current file is not restored after an include; a single backslash in an include name is dropped; a source included before is processed again; paths of 1024 characters overflow.

Locator
* `loc_get_path` writes behind the buffer of `MAX_PATH` octets if the path in a mark has 1024 octets or more (`RuC.Locator.Props.long_path_overruns`), and does not stop at the end of the text if the quote is missing.
* `loc_line_break` counts a line also where a mark ends the line of code, so that it is off by one in a processed text (`RuC.Locator.Props.line_break_with_marks`; the header says so).

Text between the directives
* A lone carriage return is dropped (`RuC.Text.Props.return_dropped`); in a comment it makes the blanks of the whole text so far appear (`return_in_comment`).
* Letters behind digits are taken for a name, so a macro `e5` cuts the number `1e5` (`number_cut`).
* A comment that is not ended is reported twice behind the name of a macro (`reported_twice`); a macro that calls itself is expanded 256 times before the message (`self_reported`).

Macros with arguments (`RuC.Subst.Props`)
* A call that ends in an open bracket at the end of the text, `F((`, is read for ever (`bracket_forever`).
* A call that is not closed at the end of the text, `F(1,`, is accepted with an empty last argument (`end_accepted`).
* An argument that is empty, or of which nothing is left after its macros are replaced, is looked up as no value: `(null)` is printed for it (`empty_argument`, `vanished_argument`).
* `x#a` in a body is not replaced: the masked name is printed as it is (`hash_glued`).
* `#define F(a,)` is accepted (`comma_accepted`).
* A parameter is replaced inside of what looks like a number, `1a` (`number_replaced`).
* The string made of an argument has only quotes escaped: the backslashes of strings in it lose their meaning (`string_changed`), and a last backslash is lost (`string_same`).

LLVM generator (`RuC.Llvm.Props`; each is a program whose text does not give the value of the source)
* `continue` goes to the body without asking the condition (`continue_wrong`); for `return` in `main` nothing is printed (`return_main_wrong`).
* `if (x = y)` is always false (`assign_test_wrong`); `for (;;step)` makes the step first (`for_wrong`).
* `if (!b)` of a bool goes the wrong way (`not_wrong`); `b = !(x < 5)` is not negated (`not_stored_wrong`); `!` leaves the labels exchanged, so that `do { b = !b; .. } while (..)` ends when it should go on (`swapped_wrong`).
* `(x = 1) + 2`: no instruction for two constants (`constants_wrong`); `-(x = 1)` takes an old register (`unary_wrong`).
* A ternary inside an operand of a branch of a ternary gives the `phi` the wrong block (`ternary_wrong`).
* `return a < b` prints nothing (`return_cmp_wrong`); `bool b = x < y;` stores nothing (`declared_cmp_wrong`).
* `c = a && b` has a `phi` that names `%0` (`logic_stored_wrong`), puts a label twice when nested (`labels_twice`) and jumps to a label that is not there when the right side is a constant (`target_missing`).
* `default` of a `switch` is not taken (`switch_wrong`); the second `switch` puts a label twice (`switches_twice`).

MIPS generator (`RuC.Mips.Props`)
* The register of a constant loaded for `-`, `*`, `/`, `%`, a comparison, unary minus, a case or `return` is never given back (`leak`); after ten of them every further value is given `$s2` (`leak_exhausts`, `exhausted`).
* `$s0` and `$s1`, which `get_register` gives after `$t7`, are not known to `free_register`: it takes `$t8` and `$t9` for them (`saved_lost`).
* `break` outside of a loop is printed as a jump to a label that may not be there (`stray`; the parser refuses such a program).
* Every comparison computes the opposite or a constant: `<`, `>` and `!=` are always true, `==` is true when the operands differ (`greater_wrong`, `equal_wrong`).
* `return 2` sets nothing, since the constant is compared with the number of `$v0` (`return_two`).
* Initial values of globals are set by instructions behind the `jr` of the beginning, which nothing leads to (`initial_lost`).
* Parameters in registers: `a = 4` is lost (`parameter_lost`), `a + 1` changes `a` (`parameter_changed`), `a++` gives the new value (`stepped_early`), `g(1, a)` reads `a` after `$a0` got 1 (`argument_overwritten`).
* `10 - a` is to be put into the constant and is refused (`constant_first`); `a + f()` keeps `a` in a register the function uses (`operand_lost`). The printed lines of `1 + x` and of a value of `%=` are refused by a reader of assembler lines (`C95_constant_first`, `C95_remainder` in `RuC.MipsText.Props`).
* The branches of `?:` are exchanged (`choice_reversed`); `%=` does nothing (`remainder_lost`).
* Strings (`RuC.MipsStrings.Props`): quotes and backslashes are printed without an escape (`C96_quote_breaks`, `C96_backslash_changes`, `C96_backslash_at_end`), `%` in front of a new line breaks the line (`C96_new_line_breaks`), and behind `%` at the end of a string the loop leaves the string (`C96_percent_at_end`).
* `printf`: `%%` is counted as a conversion, so that `printf("100%%\n")` loses its new line and `printf("%% %i", x)` gives the value to the wrong piece (`C97_percent_lost`, `C97_percent_shifts`); a Cyrillic letter behind `%` is cut in two (`C97_letter_cut`); what the second argument prints while it is computed comes into the middle (`C97_output_between`).

The units for which the text is proved to compute what the source means are those of `okU` in `Mips/Frag.lean`: no comparisons, `?:`, `&&`, `||` and `switch`, first operands that are in temporary registers, calls that stand alone, behind `=` or behind `return`, `main` ending with `return`.

Spelling of types (`RuC.Spelling.Props`; used in debug builds)
* The buffer of `write_type` has 128 characters and its end is not checked: a function with 26 parameters runs over it (`C98_too_long`).
* For an enumeration nothing is put into the buffer, which is printed all the same (`C98_enum_lost`).
* A constant array is spelled as an array of constants (`C98_const_array`).

Values of 64 bits at the end of a vector (`RuC.Push.Props`)
* A NaN with the bits of `ITEM_MAX` is read as `DBL_MAX` (`C104_nan`), and adding shifts by the whole width (`C104_undefined_shift`).

Declarations of structures (`RuC.Declared.Props`)
* For a member that is an array the word `here` is written instead of a type (`C103_array_member`).
* Every cell of the table of types is taken for the beginning of a type; a member whose name has the number 1002 leads to the declaration of a structure that is none (`C103_not_a_structure`).

Suffixes of integers (`RuC.Suffix.Props`)
* The two letters of `ll` may differ in case, `1uLl` is accepted, which is no integer of C (`C102_mixed_case`).

Values of 64 bits in records (`RuC.Wide.Props`)
* `hash_set_double` and `hash_set_int64` compare the answer of a refusal, `SIZE_MAX`, with `DBL_MAX` and `LLONG_MAX`, so that a refusal is answered with the index of the record (`C101_refusal_not_told`).
* The number `SIZE_MAX` passes the check of the place and the amount of the record is written over (`C101_amount_overwritten`).
* With cells of 64 bits every store of such a value shifts by 64 places, which is undefined (`C101_undefined_shift`).

Outline of trees (`RuC.Outline.Props`; used in debug builds)
* Parts of `for` that are left out are not marked: `for (; x; )` and `for (; ; x)` give the same file (`C99_for_ambiguous`).
* Literals are written as they are: a string with a new line in it ends the line (`C99_string_breaks_line`), and so does the letter `Њ`, of whose code `%c` prints the lowest byte, 10 (`C99_character_breaks_line`).
* A declaration that marks an error is written without indentation (`C99_invalid_not_indented`).

Logger (`RuC.Logger.Props`)
* Message, line and marks of 4096 octets or more overrun the buffer of `log_main` (`log_marks`, `long_line_overruns`): a long line of the source in an error report.

Commenter (`RuC.Commenter.Props`)
* From an empty line in the middle of a text `cmt_search` answers the line behind it (`empty_line_wrong`): the walk starts on the end of that very line and counts it.
* In a text that begins with ` #` or `/ #` the walk back reads in front of the text (`reads_before_text`).

Listing (`RuC.Listing.Props`)
* With cells of 64 bits, the default, a floating literal takes one cell, but `write_instruction` takes two and joins their halves: the number shown is not the literal and the instruction behind it is not shown (`C87_floating_swallows`).
* Strings lie in the code, and a character whose number is that of an instruction is shown as that instruction with what follows as its operands (`C87_string_swallows`).

Syntax tree (`RuC.Ast.Props`)
* A declaration given a broken initialiser that is not `NULL` is recorded as having one and answers SIZE_MAX bounds (`broken_initializer_miscounts`; the parser gives `NULL`).
* A node left unused under a function is counted as a parameter (`unfinished_node_miscounts`; the parser leaves such nodes only after an error).

Streams (`RuC.Streams.Props`)
* `out_set_buffer(SIZE_MAX)` writes the terminating zero behind a block without octets (`buffer_size_wraps`).

## Defects seen but not (yet) proved

* Behind a backslash and a carriage return that do not end a line the position is set back to the carriage return and not to the backslash.
* A macro whose text begins with blanks shifts the column reported for its replacement.
* After a carriage return in a string the next character is not compared with the quote.
* `parse_values` and `parse_observation` run without a location; errors in arguments have no place.

* `storage_add` of an existing name overwrites the value in the map with -1 before failing.
* `parse_replacement` keeps a pointer into the strings while a nested definition may move them.
* `linker_set_index` checks its bounds with `&&` where `||` is meant; `linker_clear` answers -1 on success.
* A header that cannot be opened is silently ignored.
* Pointer code: `**p`, `*&x`, `*a[i]`, `*(p+1)` are miscompiled; assigning a pointer member through `->` writes through the pointer.
* Structure equality is emitted as equality of single cells; `abs` truncates to `int`.
* `print` accepts a list of initialisers.
* `get_error` formats into 512 characters, names of identifiers are not bounded; the text of `wrong_init_in_actparam` is replaced by the next one, a `break` is missing.
* An index of the representation table that is 2 to 17 modulo 2^32 is taken for a keyword.
* An empty macro argument prints `(null)`.
* `for` with an early error leaves its scope open; an unclosed `struct` or `enum` list loops at the end of the text.
