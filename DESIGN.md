# Formal model of Ed94/gencpp in Lean 4

## Approach
Every modelled function is a total Lean definition that follows the C++ text statement by statement, with a comment citing
file and lines. Undefined behaviour (out-of-bounds access, null dereference, use of an indeterminate value), a deliberate
stop (`GEN_ASSERT`, `GEN_FATAL`, `GEN_PANIC`) and an endless loop are distinct outcomes of the model (`Model/Res.lean`:
`ok`, `ub`, `stop`, `hang`), never silently totalised. Loops whose termination is not structural take fuel; running out of
fuel is `hang`, and the theorems show either that enough fuel exists or that no amount of fuel suffices.

Properties are stated against small independent specifications (lists, finite maps, substitutions, relations between a
code and its text). Where the code does not satisfy a property as a user would state it, the negation is proved with a
concrete witness (the theorems listed under "Refutations") and what does hold is proved under explicit hypotheses.
Beside each theorem an `example` applies it to a concrete case, so that its hypotheses are met.

Layout: `lean/Verif/Model` the model, `lean/Verif/Proof` supporting lemmas, `lean/Verif/Props` the properties
(theorems `Cnn_…`), one or more files per group of properties. `MANIFEST.json` lists the theorems of each property.
Theorems with the suffix `_partial` prove a part of their property; what is missing is said in the manifest note.

## Trusted base
* Lean's kernel (4.33.0). The axioms that theorems depend on are at most `propext`, `Classical.choice` and `Quot.sound`
  (`#print axioms` on every theorem in the manifest shows no others; theorems about concrete data depend on fewer).
  No axioms of our own, no compiled evaluation: concrete evaluations are by `decide`, `decide +kernel` or `rfl`.
* That the Lean definitions transcribe the C++ faithfully. Each definition cites its lines; simplifications are stated
  in the comment of the definition or at the head of its file. They are collected below.
* Model/Os.lean as a description of POSIX (C62 only).
* The reading of C++: 64-bit little-endian target, two's-complement arithmetic for the explicitly sized types, `NULL` is 0.

### What is modelled
| file in /repo/base | modelled | in |
|---|---|---|
| dependencies/memory.hpp, memory.cpp | mem_*, alignment, arena, fixed arena, pool, default_resize_align | Mem, Arena, Pool |
| dependencies/containers.hpp | Array, HashTable | Array, HashTable |
| gen_c_library/components/containers.{array,hashtable}.hpp (in /repo) | text of the C containers | Array, HashTableC |
| dependencies/hashing.cpp | crc32, crc64 | Crc |
| dependencies/string_ops.{hpp,cpp} | c_str_*, number conversion, to_lower/upper | CStr, Numbers |
| dependencies/strings.{hpp,cpp} | Str, StrBuilder, string cache | CStr, StrBuilder, StrCache |
| dependencies/printing.cpp | str_fmt_va and its printers but for floats | Printing |
| dependencies/parsing.cpp | csv_parse_delimiter 810-1006 | Csv |
| dependencies/parsing.cpp | adt_print_string 735-764, csv_write_* 1012-1116 | CsvWrite |
| dependencies/parsing.cpp | adt_make_branch … adt_append_int 14-441 | Adt |
| dependencies/parsing.cpp | adt_parse_number, adt_parse_number_strict, adt_print_number 443-733 | AdtNumber |
| dependencies/filesystem.cpp, filesystem.hpp | the POSIX functions and the calls on files | Files (environment: Os) |
| helpers/misc.hpp | all functions | Tools |
| gen_c_library/components/misc.hpp | ignore_preprocess_cond_block, and the loops of c_library.cpp that call it | CondBlock |
| gen_c_library/components/misc.hpp | rename_function_to_unique_symbol | UniqueName |
| gen_c_library/components/misc.hpp | gen_generic_selection_function_macro | SelectMacro |
| gen_c_library/components/misc.hpp | convert_cpp_enum_to_c | EnumToC |
| gen_c_library/components/misc.hpp | swap_pragma_region_implementation, and the loop of c_library.cpp that calls it | SwapRegion |
| base/helpers/base_codegen.hpp | gen_ecode, gen_eoperator, gen_especifier: the enum and its tables of names | EnumTables |
| auxiliary/builder.cpp, scanner.cpp | their use of files, parse_file, parse_csv_* | Files |
| components/gen/*.hpp | the enumerations and their tables | Enums, Keywords |
| components/ast.hpp, inlines.hpp, gen/ast_inlines.hpp | the node, body, params, specifiers operations | Ast |
| components/ast.cpp | code_duplicate, code_is_equal, code_validate_body | Ast, Equal |
| components/interface.cpp | init, deinit, reset, define_constants, make_code, cache_str, register_macro, fallback allocator | Context, Constants, MakeCode, StrCache, Fallback |
| components/interface.untyped.cpp | token_fmt_va, token_fmt_impl, untyped_* | TokenFmt, Upfront |
| components/interface.upfront.cpp | every def_* function | Upfront, Comment |
| components/code_serialization.cpp | every *_to_strbuilder function | Serialize |
| components/lexer.cpp | all of it | Lexer |
| components/parser.cpp | all of it (strip_formatting separately) | Parser, ParserType, ParserDecl, ParserBody, Strip |
| components/interface.parsing.cpp | every parse_* function | ParserApi |
| auxiliary/builder.cpp, scanner.cpp | Builder, scan_file | Builder, Scanner |

### What is not modelled
* filesystem.cpp: the Windows functions; timing.cpp, debug.cpp (asserts are outcomes), platform headers, header_start/src_start.
* parsing.cpp: 64-bit floats (parameters of the number model).
* code_types.hpp, ast_types.hpp and the C++ operator wrappers: they are casts and forwarding calls.
* base_codegen.hpp apart from the parts of gen_ecode, gen_eoperator and gen_especifier that depend on the file (C65), gen_c_library/components/misc.hpp is modelled (C66 to C69), gen_template.hpp, the bootstrap programs and the generators for C / segmented / singleheader:
  programs that use the library.
* The text of diagnostics (`code_debug_str`, `log_fmt`, `parser_to_strbuilder`); `GEN_DEBUG_TRAP`.
* `Token` fields of nodes (debug information); the parse stack is modelled only as far as scopes.
* Exhaustion of the underlying system allocator (allocation of the base allocator succeeds, except where a property is
  about exhaustion); 2^31-entry overflows of `s32` counters.

### Simplifications, by model file
* Ast: a node is a record with the union slots separated where the C++ code never reads one through the other; where it
  does (parameters/enum entries, `Ast[]` slots of bodies against `front`/`back`), the model has one slot for both.
* Lexer: content is a byte list with a terminating NUL; reading behind the NUL is `ub`. `fatal` chooses the default build or
  GEN_DONT_USE_FATAL.
* Parser: tokens live in an array of cells that does not move (65536 tokens before it grows); stale cells of earlier
  parses are kept, because the code reads them.
* Serialize: allocation of builders succeeds; format buffers have their real size, overlong texts are dropped as in the code.
* Builder/Scanner: the content only; the files are in Model/Files, over the model of the operating system Model/Os (no directories, no other
  processes; a transfer that succeeds may be short).
* Context: contexts have separate memories; see the head of the file.
* Crc collisions: interned strings are identified by CRC-32 as in the code; theorems that need it assume the strings in
  question do not collide, and the refutations exhibit colliding strings.

## Plan and state per property
* **C01 mem_set fills exactly the requested range** (proved; 2 theorems) - Model/Mem: memory is a partial map from addresses to bytes, a load or store of an unmapped address is undefined behaviour; `mem_set` stage by stage. Case split on the stages, induction on the 32-byte loop. All destinations, lengths and alignments of the x86-64 byte-level model.
* **C02 mem_move copies as if through a temporary** (proved; 2 theorems) - Model/Mem: `mem_move` with its three paths, words are 8-byte loads and stores. Loop invariants by induction on the remaining count. All overlaps and alignments.
* **C03 mem_find returns the first occurrence** (proved; 2 theorems) - Model/Mem: `mem_find` with the HAS_ZERO word test on `BitVec 64`; the word lemma by byte decomposition, the loop by induction. All lengths and alignments.
* **C04 Alignment helpers round up to the least multiple** (proved; 4 theorems) - Model/Mem: the alignment helpers; arithmetic proofs against "least multiple not below". align_forward_s64 for every positive alignment, pointer align_forward for powers of two.
* **C05 Arena allocations are in bounds, aligned and disjoint** (proved; 7 theorems) - Model/Arena: arena as a state machine over requests; invariant by induction over the history. Mixed alignments are refuted. Proved under the single (or non-increasing) alignment condition in the statement; the unconditional version is refuted by the two _refuted theorems.
* **C06 Pool blocks are never handed out twice** (proved; 11 theorems) - Model/Pool: free list stored in the memory; invariant: free blocks ++ live blocks is a permutation of all blocks. Legal histories; double free and clear accounting are refuted separately.
* **C07 resize keeps the old contents** (proved; 4 theorems) - Model/Mem: `default_resize_align` over an allocator given by its contract. default_resize_align.
* **C08 Array operations behave like list operations** (proved; 12 theorems) - Model/Array: header + storage; every operation refines a list operation, histories by induction. The C library variant too. Every history of the list-like operations; the operations that do not behave (append_at variants, append_items of the C++ build, C library set_capacity) have refutation theorems.
* **C09 Array capacity invariant** (proved; 3 theorems) - Model/Array: capacity invariant by induction over operations; accesses are checked by the model. Every reachable state.
* **C10 HashTable get returns the latest set** (proved; 3 theorems) - Model/HashTable: Hashes/Entries with index chains; refinement to a finite map by an invariant preserved by every operation. Every history of set/clear/rehash/grow/remove of the C++ HashTable.
* **C11 HashTable removal forgets exactly that key** (proved; 2 theorems) - Model/HashTable: `hashtable_remove` with `rehash_fast`; refinement to a finite map. hashtable_remove; hashtable_remove_entry and hashtable_slot are refuted.
* **C12 The generated C hashtable agrees with the C++ one** (partial; 5 theorems) - Model/HashTableC: the text of the C generator; agreement within the load threshold by induction, disagreement beyond it by witness. Proved for every history that stays within the load threshold, except for the first key; beyond that the claim is false of the code (refutation theorems).
* **C13 crc32/crc64 compute the polynomial remainder** (proved; 4 theorems) - Model/Crc: table entries against the bitwise generator; step lemma by linearity of the polynomial division; induction on the string. Table-driven CRCs equal the bitwise ones for every string; burst errors up to 32 bits detected; injectivity refuted.
* **C14 Interning returns the content it was given** (proved; 5 theorems) - Model/StrCache: string cache over the hash table and the string arenas; invariant over histories. Every history of cache_str calls whose strings do not collide under CRC-32 and fit the string arenas; the unconditional version is refuted.
* **C15 StrBuilder append is concatenation** (proved; 6 theorems) - Model/StrBuilder: header (capacity, length) + storage; refinement to byte lists over histories. Every history of appends; the operations that break the terminator are refuted separately.
* **C16 StrBuilder trim and strip_space** (proved; 6 theorems) - Model/StrBuilder: `trim`, `strip_space` against dropWhile-style specifications. trim and strip_space for every content; skip_line refuted.
* **C17 Integer formatting and parsing round-trip** (proved; 8 theorems) - Model/Numbers: digit loops by strong induction on the number; round trip. Every s64 but the least one, bases 2-10 and 16; the least s64, large u64 and base 36 are refuted.
* **C18 Str comparison functions** (proved; 10 theorems) - Model/CStr: lexicographic order / prefix / list equality as specifications. Every pair of Strs without embedded NUL; the cases that fail are refuted.
* **C19 token_fmt substitutes exactly the given tokens** (proved; 6 theorems) - Model/TokenFmt: buffer-level model of `token_fmt_va` with its token table; the specification is a substitution on lists of pieces. Every template made of literals, given tokens and other bracketed text whose result fits the buffer, provided the names do not collide under CRC-32; unclosed brackets, overlong results and collisions are refuted.
* **C20 Specifier lists** (proved; 10 theorems) - Model/Ast: 16-slot specifier array; list of specifiers as specification. Every history without duplicates that does not fill the list; duplicates and full lists are refuted.
* **C21 Body append keeps order and count** (proved; 9 theorems) - Model/Ast: heap of nodes; list-segment predicate `Chain`/`IsBody`; induction over the sequence of appends. Every sequence of appends of codes and of non-empty bodies; the cases that go wrong (re-appended entry and for-iteration, empty body, code_append of a body) are refuted.
* **C22 Parameter lists keep order and count** (proved; 7 theorems) - Model/Ast: parameter chains `IsParams`; induction over the sequence of appends. params_append, def_params and iteration for every sequence of single parameters; params_get, def_params_arr and appending lists refuted; serialization of a list of any length is C22_prints.
* **C23 Fresh AST nodes** (proved; 3 theorems) - Model/MakeCode: `make_code` over pools of fixed size; invariant over histories. Any number of calls and pool roll-overs.
* **C24 Macro registry** (proved; 3 theorems) - Model/StrCache: macro table on top of the hash table and the string cache. Every history of registrations of non-colliding names; collisions and empty names are refuted.
* **C25 Keyword recognition** (proved; 9 theorems) - Model/Keywords: keyword tables by kernel evaluation, everything else through the CRC of the spelling. All spellings; another string is recognised iff its CRC-32 collides with a keyword, and such strings exist (refutation).
* **C26 Lexing terminates and stays inside the input** (partial; 6 theorems) - Model/Lexer: cursor-level model of `lex` on a NUL-terminated buffer; reads outside of it are undefined behaviour. Termination by a measure, safety by an invariant of the turn of the main loop. Termination for every content. Stays inside the content for every safe content (comments and includes closed, defines not empty, carriage returns only before newlines); false of the code otherwise: refutation theorems for each condition.
* **C27 Token texts are ordered disjoint slices of the input** (proved; 11 theorems) - Model/Lexer: tiling invariant of the main loop; relation `Lexes` (Props/LexExactSpec) is the grammar of tokens, exactness by induction on it. Every content with proper line ends, failures fatal (the default build): full tiling, order, coverage, lexeme shapes; exact tokens for lines of words. Lone carriage returns and the non-fatal build are refuted.
* **C28 Token positions** (partial; 4 theorems) - Model/Lexer: positions as a fold over the bytes (`Pos.after`). The recorded position is one from which only whitespace leads to the token, exact if no whitespace precedes; that it is the first byte is false of the code (refutation theorems).
* **C29 Upfront constructors validate and build** (proved; 42 theorems) - Model/Upfront: every `def_*` constructor: validation conditions and the whole node built. Every def_* constructor, every argument combination: exactly when it accepts and the whole node it builds. Where the source itself deviates from the property (def_using, def_enum, def_template, def_typedef, def_operator_cast, interfaces) a refutation theorem says so.
* **C30 Operator overload classification** (partial; 10 theorems) - Model/Upfront: the operator table of `operator__validate`. Classification proved for every operator whose rule in the source is the C++ one; refuted for the rest (prefix/postfix increment, unary +/-, subscript, call, ->*, missing return type).
* **C31 Body constructors** (proved; 7 theorems) - Model/Upfront: the body constructors; loop invariant. Every kind and every list of entries that are not themselves bodies; inlined empty bodies, invalid-code entries and the result type of two _arr functions are refuted.
* **C32 Structural equality** (partial; 20 theorems) - Model/Equal, Model/Serialize: `code_is_equal` on the heap; induction on fuel/tree. That equal trees print the same: what each check that succeeds says in both directions, a congruence of every serializer, induction on the nesting of the calls and along the two lists of entries. Reflexive and true of duplicates for plain trees, sound for type and name, complete characterisation for typenames; two trees of any depth all of whose printed parts are compared, and that compare equal both ways, make the same text (C32_equal_prints_partial: 36 of the kinds of code, with bodies). False of the code in general: parameter lists, contents, function bodies, symmetry, `export` before a declared struct, `final`, `= default`, the tag of a type: refutation theorems. Missing from the positive part: what the code itself does not compare.
* **C33 Body validation** (partial; 4 theorems) - Model/Equal: `code_validate_body`. Only rejection of a bad first entry holds; the function hangs or never returns true otherwise: refutation theorems.
* **C34 Serialization of a body is the concatenation of its entries** (proved; 4 theorems) - Model/Serialize: `body_to_strbuilder*`; induction over the chain. Every body kind but export bodies: exactly the texts of the entries in chain order; export bodies print their entries twice indented inside braces and are refuted separately.
* **C35 Context reset and re-use** (proved; 10 theorems) - Model/Context: contexts, `init`/`deinit`/`reset`/`set_context`; invariant over histories of library calls. Every history without reset in which the base context is freed last. reset (for every context), a second context without the enum_underlying macro, freeing the base context early and deinit with user allocators are refuted.
* **C36 Formatted printing stays inside its buffer** (partial; 20 theorems) - Model/Printing: `str_fmt_va` with its conversions on a bounded buffer; specification is `rendered`, the text of a format. Props/PrintingNumbers: the same for formats with integer conversions with flags, widths and sizes (`IntConv.text`), compared with the C standard (`IntConv.standard`). Exact output and return value for every format of literals and %S %SB %s %.*s %*s %d %u %lld %c %% whose output fits the buffer; the bound on what is written is false of the code (literals, %r, %x): refutation theorems. Props/PrintingNumbers: %d %i %u %o %x %X with any flags, width and length letters among them, the exact text, where it is the one of the C standard and where it is not. Props/PrintingRepeat: %r and %*r. Float conversions, %p and precisions of numbers are not covered.
* **C37 CSV parse recovers the cells** (proved; 14 theorems) - Model/Csv, Model/Numbers: `csv_parse_delimiter` on the mutable buffer; specification is a table of cells; safety by an invariant over all texts. Every table as described, every text for safety. Refuted outside the conditions: wider later rows are accepted, an empty last cell merges two rows, an empty quoted cell damages the text behind it, a tab as delimiter does not separate, a cell at the end of the text is not trimmed; no cell is ever converted to a number.
* **C38 Fallback allocator** (proved; 5 theorems) - Model/Fallback: bucket allocator; invariant over histories. Every sequence of requests that fit a bucket; oversize requests and resize are refuted.
* **C39 C string helpers** (proved; 14 theorems) - Model/CStr: C string helpers on the memory model. Every NUL-terminated string.
* **C40 Builder output** (proved; 5 theorems) - Model/Builder: `builder_*`; fold over the operations. Every sequence of print, print_fmt and pad_lines whose operands serialize; pad_lines ignores its number and print_fmt drops texts of 131071 bytes (refutation theorems). The file system itself is not modelled: the content is what is handed to file_write.
* **C41 File scanning strips only the intellisense block** (proved; 9 theorems) - Model/Scanner: `scan_file` on the content of the file; specification: content without the block. Every content of the described shape; overruns, blank lines behind the block, other macros with the same beginning and nested directives are refuted.
* **C42 Comments** (proved; 5 theorems) - Model/Comment: `def_comment`; list of lines as specification. Every NUL-terminated text; views into longer strings are refuted.
* **C43 Whitespace visualisation and joining** (proved; 2 theorems) - Model/StrBuilder: `strbuilder_visualize_whitespace`, `join`. join and visualize_whitespace.
* **C44 Duplicating a node** (proved; 3 theorems) - Model/Ast: `code_duplicate`. Every node; for bodies the copy shares entries (refutation).
* **C45 Text of class, struct, union and enum definitions** (proved; 14 theorems) - Model/Serialize: texts of class/struct/union/enum codes: relation `Says`/`Prints` between a code and its text, by symbolic execution of the serializer for all parts. Each kind, definition and forward declaration. Where the source deviates (protected printed as private, enum class attributes, class with several parents) a refutation theorem says so and the theorem states the real text.
* **C46 Text of functions, operators, constructors and destructors** (proved; 15 theorems) - Model/Serialize: functions, operators, casts, constructors, destructors, in the same way. Each kind. Deviations (pure/virtual destructors, export order, cast comments) are refuted separately; constructors and destructors are stated for codes placed in a class.
* **C47 Text of variables, parameters, typenames, usings and typedefs** (proved; 14 theorems) - Model/Serialize: variables, parameters, typenames, specifiers; induction for lists. Each kind, lists and chains of any length.
* **C48 Text of directives and wrappers** (proved; 17 theorems) - Model/Serialize: the other kinds. Each kind; parts that the source drops are refuted separately.
* **C49 What def_* builds prints as the declaration asked for** (proved; 36 theorems) - Model/Upfront, Model/Serialize: composition of C29 and C45-C48: what a constructor builds prints as documented; frame lemma for the heap of nodes. Each def_* constructor; constructors outside a class body, typedef of a struct and enum class forward declarations are refuted. Names and texts must fit the cached-string and format-buffer limits stated in the hypotheses.
* **C50 Parsing leaves earlier codes alone** (proved; 3 theorems) - Model/Parser*: the recursive-descent parser as a state-and-outcome program; a frame logic over all its functions, proved by mutual induction on fuel. Every parse_* function modelled (20 of them), every content and history. The exception for t_empty is real: C50_empty_parent.
* **C51 Parsing yields the right kind of code** (proved; 1 theorems) - Model/Parser*: the same logic, cursor bound. Every parse_* function modelled, every content.
* **C52 Parses share no codes** (proved; 2 theorems) - Model/Parser*: the same logic, scopes. Every parse_* function modelled, every content.
* **C53 The library stays ready to parse** (proved; 2 theorems) - Model/Parser*, Model/Constants: the same logic, well-formed tree. Every parse_* function modelled, every content.
* **C54 Parsing terminates** (proved; 5 theorems) - Model/Parser*: fuel monotonicity and a measure on the cursor. Every parse_* function modelled and every content without the keyword operator (and, for parse_function and parse_operator, without const); with them the code loops: C54_const_function, C54_operator_case.
* **C55 Stripping of formatting** (proved; 10 theorems) - Model/Strip: The state of the scanner is abstracted to (text put out so far, rest of the text); lemmas for letters, literals, comments and gaps move it over one item; induction over the words. Safety: an invariant of the loop (scanner inside the text, output not longer than what was read). Every text of words and gaps as described; for safety every text without block comments. Refuted: an unclosed block comment runs past the end, /*/ counts as closed, an escaped backslash before a closing quote hides it, a lone backslash is dropped, a tab followed by one space gives two spaces.
* **C56 Parse, then print** (proved; 40 theorems) - Model/Lexer, Parser*, Serialize: Props/ReadSpec.lean relates token sequences to the normal form of a declaration. A calculus of runs (Here: which tokens are ahead) gives for every parsing function, on tokens in the relation, the exact result: the index behind the tokens and the nodes made; the nodes are described by predicates stable under later changes (Agree, Shown), and the printing theorems C46-C48 give the text. Bodies: Props/ReadBodySpec.lean gives the members of a class, namespace or file as tokens; Reads says of a member loop that, started in front of these tokens with any body node, it stops behind them with the body extended by entries that print as the text (BodyHas); the proof is one induction over the specification for all places, with the recursion budget of the model bounded by the tokens left. Searches of the parser that run ahead of the declaration (a parenthesis, a constructor's name, the end of a struct) are proved to end where they should (Proof/ReadScan, ReadRecord). What is false beyond the specification is refuted in Props/ReadRefute.lean. Preprocessor directives and static assertions (Proof/ReadDirective) are members as well. The specification (Props/ReadSpec, ReadFnSpec, ReadBodySpec) says which token sequences are meant and how each is printed; what the parser gets wrong near by is refuted (…_refuted). Bases of structs, templates (classes, structs, unions, functions, variables, aliases), preprocessor directives and static_assert are covered. Not covered: constructors, operators, template arguments of types (A<int>), protected bases and bases of classes (which cannot be printed).
* **C57 Memory file streams** (proved; 12 theorems) - Model/Stream: Memory streams as buffer, cursor, capacity and flags, reads and writes on cells that may be unwritten. Holds relates a stream to an abstract file (bytes and position); one lemma per call, induction over the history. Every history inside the stream, every mode. Refuted: the second write that extends a growing stream loses everything the stream held (the array is grown with a count of 0), reads over the end and writes behind the end are not checked.
* **C58 Writing comma-separated values** (proved; 7 theorems) - Model/CsvWrite: The writer as the list of pieces handed to file_write, each made by the model of the formatter; the pieces of one cell are its escaped text (induction over the loop of adt_print_string), lines and tables by induction over columns and rows; reading back by C37. For csv_write_string the pieces go through the model of memory streams (C57). Every table of texts shorter than 131070 bytes; for reading back, cells as C37 wants them (no empty quoted cell, last cell of a row not empty). Refuted: csv_write_string keeps only the last byte of the text (for every table), a table without rows loses its names, a short column is read behind its end, names are dropped if the first column has none. What the operating system does with the pieces is not modelled.
* **C59 Printing is stable under parse-then-print** (proved; 17 theorems) - Props/RoundSpec: Declarations as trees with their printed text. The text of a tree is cut into lexer pieces (Layout), so it lexes into known tokens; these tokens satisfy the grammar of C56, whose normal form is computed to be the text of the tree `again` (one line break more per filled pair of braces). Rounds by induction on their number. Declarations of the form of C56 without templates, operators, constructors, parents of classes and inline comments behind a semicolon; expressions and function bodies are any tokens in any layout. Refuted: a printed array without a bound cannot be parsed again; a struct grows by an empty line each round.
* **C60 Numbers of a data tree** (proved; 22 theorems) - Props/AdtNumber: Model/AdtNumber: the scanner with its buffers of 48 and 6 bytes, the bit fields of the node (wrap), the printer through the formatter of C36; c_str_to_f64, float multiplication and %f are parameters. Specification: Props/AdtNumberSpec (numerals and their value). Loops by induction on the digits; printing by a general lemma on formats with %lld, %0*d and %llx; round trip by the uniqueness of digits. Every numeral of the forms described; conversion to and arithmetic on 64-bit floats are parameters (the theorems say which text is converted and how often it is scaled). Refuted: 0X, a minus in front of 0x, an exponent without a point, words of the letters a-f, exponents over 7, six exponent digits, 48 characters, -2^63; the strict reader refuses every hexadecimal number; zeros behind the point of a number with an exponent grow by one each round.
* **C61 Data trees** (proved; 21 theorems) - Props/Adt, Props/AdtMore, Props/AdtDemo: Model/Adt: variables and arrays of nodes in a heap of blocks (a freed block cannot be read, a grown array is a new block), every function of 14-441; the recursion of find, query and destroy has fuel and runs dry as hang. Specification: Props/AdtSpec (trees, places, edits, finding, steps of a query; Holds: a node stands for a tree and which blocks it owns). Edits: a frame lemma for the node pointed to, lifted along the path by induction on it. Find, query, destroy by induction on the tree. Refutation of remove by an invariant: no node in memory has a parent. Every tree, place and history for append, set, find, query and destroy. Refuted: adt_remove_node and adt_swap_nodes are undefined for every node made by the append functions, which never set the parent (C61_remove_refuted); adt_move_node leaves the old node behind; adt_alloc_at in the middle doubles a sibling; arrays are not searched; an unnamed child of an object makes a search undefined; pointers to nodes dangle when their array grows; in the C library the first append is undefined; an append without memory asserts; an index that is no number gives element 0.
* **C62 Files** (proved; 34 theorems) - Model/Os, Model/Files: Model/Os is POSIX (the environment): names, nodes, descriptors, the fate of each coming call, and the history of all states of the disk (what a killed process leaves, byte by byte of a transfer). Model/Files is the library. Props/FilesSpec says what a file is to a user (bytes and position, Call.meaning). Each call is run symbolically from IsOpen; histories by induction; OnlyFile and Unchanged are frame conditions over disk, descriptors, heap, standard files and the history. Builder: composition with C40; parse_file: composition with C56 (C62_translate). POSIX functions; the operating system is a model of POSIX open, lseek, pread, pwrite, write, close with refusals, short transfers and kill points. Refuted: a short write or read is reported as success; a failed write and a read over the end move the position; file_tell of a file opened for appending; file_write_at moves the position only where it equals the offset; a negative seek; closing twice; file_read_contents and parse_file of an empty or missing file use values never stored; the builder does not replace a file in one step, and has no buffer if a failed open is not fatal.
* **C63 Codes through other programs** (proved; 10 theorems) - Model/Tools: system is any function from the text of the command and the disk to a disk (Shell). The commands are built with the models of StrBuilder and strbuilder_append_fmt (C36) and read as C strings; composition of C62_builder, the commands, C62_scan_file and remove. Rewritten/Edits/Cleared are the specification. The other programs are any function from command and disk to disk; paths are shorter than 131000 bytes and without NUL. Refuted: clang_format_file with a null style goes through a builder that was never stored, although it asks for null; nothing is quoted, so names with spaces give the same command for different requests.
* **C64 Leaving out conditional blocks** (proved; 6 theorems) - Model/CondBlock: Keeps and Inside specify what is kept of a list of entries; Reading is the invariant of reading one body while appending copies to another (from C21); each loop by induction on the specification, one unit of fuel per entry. Every body and nesting; the part behind the #else of a left-out block must not contain conditional directives, the block no #elif of its own. Refuted: a block inside the part behind #else (its #endif is taken for the outer one), #elif, an unclosed block, and the loop over inlines.hpp, which passes the bodies of another loop.
* **C65 Enums and tables of names from comma-separated values** (proved; 8 theorems) - Model/EnumTables: generate is the chain of parse_csv_two_columns (C62), the loop over the rows with strbuilder_append_fmt (C36), token_fmt_impl (C19), parse_enum and parse_function, in generateCodes parse_global_body (C53/C56). The texts are given as pieces with their tokens (Proof/EnumTables), so that the lexer (C27) and the parsers (C56) apply to every list of rows; the enum outlives the second parse because a code prints the same in every heap that contains it (kept_lexed). Props/EnumTablesSpec is the specification. From the bytes of the file to the printed text, as one theorem for the operators and specifiers (C65_generate) and one for the kinds of codes (C65_generate_codes), whose two functions are read as a body; C65_*_text write the texts out; for C++ (not use_c_definition). The texts given to the parser are at most 131000 bytes. Refuted: a file with one column is undefined; names that are no identifiers are joined, get values or stop the program; a backslash in the second column stops it.
* **C66 Names for overloads** (proved; 4 theorems) - Model/UniqueName: renameUnique is written with the appenders of Model/Serialize; the text is computed by the rules of Proof/SerWrites, the parameters by induction on the list. That plain parameters are told apart is shown on the words between the underscores: equal texts have equal words, and a word of a type ends a parameter. C66_unique_name gives the name, C66_distinct that the name tells plain parameters apart. Refuted: f( ptr, int ) and f( int* ) get the same name; a reference leaves a name that is no identifier. Types, names and prefix together at most 131069 bytes.
* **C67 Macros that select a function by type** (proved; 1 theorems) - Model/SelectMacro: selectionMacro is the chain of token_fmt_impl (C19), strbuilder_fmt_buf (C36) and strbuilder_append_str (C15) over the builder that stays, and untyped_str (C29); the slots by induction on their number. The specification is the list of lines and how they are continued. Names of at most 100000 bytes and fewer than 2^31-1 slots. The builder that stays from call to call holds anything before.
* **C68 Regions whose implementation is exchanged** (proved; 5 theorems) - Model/SwapRegion: The reading relation of C64 (one body read, another written) is kept by appending a copy of any code in a body, and by appending a whole body while reading another; the search for the end by induction over the region, the loop by induction over the relation Swaps. For bodies in which every region is closed and has an entry behind it. Adjacent regions, a region at the end, one that is not closed and one whose name begins with the name are refuted.
* **C69 An enum of C++ for C** (proved; 6 theorems) - Model/EnumToC: The text of the typedef comes from C19; its pieces are lexed (C59), read (C56) and the node is shown to print as given whatever its links become. The heap is followed through the macro (C29), the two writes and the two appends (C44), node by node; the text of the enum is C45 on the result. The demo runs the whole on parsed files. For enums with an underlying type; without one the text that is parsed and cases. enum class (the macro is not printed) and a comment left behind in the token array are refuted.

## Refutations
Theorems proving that the code does not do what a user would expect. Each is a concrete run of the model, or a statement for all runs.
* `C05_mixed_alignment_refuted` C05, refutation without the alignment discipline: alignment padding is not accounted for, so three requests with increasing/mixed alignment hand out two overlapping live blocks from a 16-aligned arena.
* `C06_double_free_refuted` C06, refutation for illegal histories: after a double free the same block is handed out twice.
* `C06_clear_total_size_refuted` C06, refutation: `pool_clear` releases every block but leaves `TotalSize` as it was.
* `C08_append_at_refuted` C08, refuted for `append_at` (both libraries): the item is never stored. Whatever the item, a non-empty array ends up with the element at the insertion slot duplicated.
* `C08_cpp_append_items_refuted` C08, refuted for the C++ `append_items`: it always writes outside the array's storage.
* `C08_clib_heap_refuted` C08, refuted for the C library on an allocator that really frees: any growth passes the address of a local variable to the allocator's free.
* `C08_clib_append_items_at_refuted` C08, refuted for the C `append_items_at`: the capacity test ignores the present elements, so inserting in the middle of a nearly full array writes past the storage.
* `C08_clib_append_at_empty_refuted` C08, refuted for the C `append_at` on an empty array: the index underflows.
* `C08_cpp_set_capacity_zero_refuted` C08, refuted for `set_capacity(0)` of the C++ library: the empty array left behind can no longer be appended to (assertion).
* `C08_append_at_end_refuted` C08: behind the end, `array_append_at` repeats the last element.
* `C10_slot_refuted` C10, refuted for `hashtable_slot`: it compares the key with entry indices, so a key that was never set can get a slot and a key that was set gets none.
* `C11_remove_entry_refuted` C11, refuted for `hashtable_remove_entry`: it does not relink, so after removing an entry another key's lookup reads outside the entries.
* `C12_first_key_lost_refuted` C12, refuted: in the C library the first key set in a table is never found. General form: for every key, value and positive bucket count, and any threshold not exceeded by one entry.
* `C12_rehash_loses_key_refuted` C12, refuted: a table of the default 8 buckets loses a key as soon as it has been rehashed: after seven distinct keys, the seventh, just set, is not found.
* `C12_phantom_key_refuted` C12, refuted: after the rehash the table reports a value for key 0, which was never set (zero bytes read beyond the entries).
* `C13_injective_refuted` C13, refuted as a fingerprint: distinct strings can have the same `crc32`.
* `C14_collision_refuted` C14, refuted without the collision condition: `cache_str("buckeroo")` after `cache_str("plumless")` returns the string `plumless`.
* `C14_long_not_shared_refuted` C14, refuted beyond the interning limit: equal long strings get different pointers.
* `C14_too_long_stops_refuted` C14, refuted for a string that does not fit an arena: the call stops the process even though a fresh arena could be requested.
* `C15_clear_terminator_refuted` C15, refuted for `strbuilder_clear`: it leaves the old characters in place without a terminator, so the C string at the builder's address is still the old text.
* `C15_clear_then_strip_refuted` C15, refuted: `strip_space` right after `clear` brings the cleared text back.
* `C15_append_self_refuted` C15, refuted for appending a builder to itself: any builder as it comes from `strbuilder_make_str` with a nonempty text has no spare room, so the append reads the source after its block has been released.
* `C16_skip_line_refuted` C16, refuted for `strbuilder_skip_line`: it keeps as many characters as it should drop.
* `C17_i64_min_refuted` C17, refuted for the least `s64`: negating it overflows.
* `C17_u64_large_refuted` C17, refuted for `u64` values from 2^63 on: the parser's accumulator overflows (shown for 2^63).
* `C17_base36_refuted` C17, refuted for bases between 11 and 36 other than 16: the formatter writes letters the parser does not read.
* `C18_embedded_nul_refuted` C18, refuted for substrings with an embedded NUL: what follows the NUL is ignored.
* `C18_starts_with_string_refuted` C18, refuted: `strbuilder_starts_with_string` ignores the last character of the prefix.
* `C18_compare_len_sign_refuted` C18: the sign of `c_str_compare_len` carries no information about the strings: it is the order of the two addresses.
* `C19_unclosed_refuted` C19, refuted for a `<` that no `>` follows: the scan runs past the end of the template.
* `C19_full_buffer_hangs_refuted` C19, refuted for a template longer than the buffer: the call never returns.
* `C19_value_overflow_refuted` C19, refuted for a value that does not fit: the buffer is overrun (the result is not truncated).
* `C19_collision_refuted` C19, refuted without the collision condition: a token that was not given is replaced.
* `C20_remove_twice_refuted` C20, refuted for a specifier present twice: removing `*` from `* const *` leaves `const const`.
* `C20_remove_full_refuted` C20, refuted for a full list: nothing can be removed from it.
* `C21_iteration_refuted` C21, refuted for iteration in general:
* `C21_empty_body_refuted` C21, refuted for an empty body: appending (or iterating) it dereferences null.
* `C21_code_append_body_refuted` C21, refuted for a body entered through `code_append` (which does not flatten): the body's own first entry is lost, because `Prev` and `Front` are the same slot.
* `C22_append_list_refuted` C22, refuted for a parameter that heads a list of its own: appending `[2, 3]` to `1` and then `4` counts 3 parameters and visits `1, 2, 4`; before the last append it counts 2 and visits `1, 2, 3`.
* `C22_params_get_refuted` C22, refuted for `params_get`: on a list of more than one parameter it returns null whatever the index, on a list of one it dereferences null.
* `C22_params_arr_refuted` C22 fails for `def_params_arr`: the list it makes of parameters `1, 2, 3` counts two of them (the head counts for nothing), the default value of the first one is gone, and the element after the array is read.
* `C24_collision_refuted` C24, refuted without the collision condition: registering `plumless` makes `buckeroo` a registered macro.
* `C25_other_strings_refuted` C25, refuted: a string that is no keyword is taken for one: the identifier `gwzsll` is lexed as `virtual`.
* `C29_def_template_refuted` C29, refuted: without fatal failures a template of any other kind of node is built as well.
* `C29_def_using_refuted` C29, refuted: `def_using` returns `InvalidCode` for every type it is given (without a failure being reported), and builds an alias of nothing when it is given none.
* `C29_def_enum_refuted` C29, refuted: an enum definition without underlying type is refused (C++ does not want one), a forward declaration of an unscoped enum without one is built (C++ wants one).
* `C29_def_typedef_attributes_refuted` C29, refuted: the attributes given to `def_typedef` are checked and then dropped.
* `C29_def_operator_cast_refuted` C29, refuted: the body of a conversion operator may be anything the other functions take, but not untyped code.
* `C29_interfaces_refuted` C29, refuted: a class with an interface but without parent goes through a null pointer, and adding an interface changes the parent's node itself, so that every later user of that typename inherits the interface.
* `C30_null_return_refuted` C30, refuted: a return type of another kind of node fails, as it should, but without a return type the call fails only if failures are fatal, and goes through the null pointer otherwise.
* `C30_increment_member_refuted` C30, refuted: `++` without parameters (prefix member) is made a non-member.
* `C30_postfix_refuted` C30, refuted: postfix `++` as a non-member, with its two parameters, goes through a null pointer.
* `C30_unary_minus_refuted` C30, refuted: unary minus as a non-member is refused exactly when its operand is of the return type.
* `C30_special_refuted` C30, refuted: subscript, call and comma operators with any parameters are non-members (C++ wants the first two to be members), a call operator without parameters is refused, and so is `->*` with parameters.
* `C31_def_body_extern_refuted` C31: `def_body` accepts every kind of body but the body of a linkage declaration, and takes the linkage declaration itself for one.
* `C31_arr_type_refuted` C31 fails: `def_class_body_arr` gives a function body and `def_namespace_body_arr` a global one.
* `C31_invalid_entry_refuted` C31 fails: the result of a failed call (`InvalidCode`) is taken as an entry of a class, a function or a namespace, and a forward declared member function is refused.
* `C31_empty_inline_refuted` C31 fails: an empty global body among the entries of a global body is an access through null.
* `C32_params_not_reflexive_refuted` C32 fails: a parameter list with several entries never equals itself, whatever it holds.
* `C32_content_ignored_refuted` 
* `C32_not_symmetric_refuted` 
* `C32_function_bodies_ignored_refuted` 
* `C32_different_params_equal_refuted` 
* `C32_export_ignored_refuted` C32 fails: `export` before a declared struct is printed but not compared.
* `C32_final_ignored_refuted` C32 fails: `final` is printed but not compared.
* `C32_default_ignored_refuted` C32 fails: `= default` after a declared function is printed but not compared.
* `C32_tag_ignored_refuted` C32 fails: the tag of a type is printed but not compared.
* `C32_short_list_equal_refuted` C32 fails: the list `int a` is reported equal to the list `int a, int b`.
* `C33_hangs_refuted` C33 fails: a body with an allowed first entry makes the call loop for ever, whatever the other entries are.
* `C33_never_true_refuted` C33 fails: no body of any kind is ever reported valid.
* `C33_empty_refuted` C33 fails: an empty body makes the call access a null pointer.
* `C34_export_refuted` C34, refuted for export bodies: an export body with an entry is never printed: the loop starts at the body itself.
* `C36_flags_refuted` What the other flags do instead: nothing (`+`, `#`, blank), zeros on the right (`-0`), zeros in front of the sign (`0`), and nothing is printed (`0` without a width).
* `C36_size_refuted` `%zd` is unsigned: -1 is printed as the largest number. `%o` is signed. A precision cuts the number off.
* `C38_oversize_refuted` C38, refuted for requests larger than a bucket: the process is stopped although the heap could serve them.
* `C38_resize_not_in_bucket_refuted` C38, refuted for resizes: the new block is not in any bucket but straight from the heap (and so is never released by `deinit`, which frees the buckets only).
* `C38_shrink_overflow_refuted` C38, refuted for a shrinking resize: more bytes are copied than the new block holds.
* `C42_slice_refuted` C42, refuted for a view into a longer string: the two bytes after the view get into the comment.
* `C42_unterminated_refuted` C42, refuted for a view that ends where the readable memory ends.
* `C42_trailing_newline_refuted` C42: a text that ends in a newline gets one more, empty comment line.
* `C44_duplicate_body_refuted` C44, refuted for bodies as far as independence goes: a duplicated body shares its entries with the original, so appending first to the copy and then to the original changes what the copy holds.
* `C44_assign_refuted` C44, refuted for assignment: assigning a code that has a parent makes a copy, as it should, but the variable then holds the original all the same; the copy is unreachable.
* `C45_enum_class_refuted` C45, refuted: an enum class with neither attributes nor underlying type is printed as an enum without `class`.
* `C45_class_parent_refuted` C45, refuted: a class with a parent is never printed. The format asks for an access level and a builder; the name of the class is passed before them, so that the pointer of the access level is taken for a builder.
* `C45_enum_class_fwd_refuted` C45, refuted: the declaration of an enum class without underlying type is never printed (the assertion in `typename_to_strbuilder` fails).
* `C45_protected_refuted` C45, refuted: a struct that inherits `protected` is printed as inheriting `private`.
* `C46_virtual_destructor_refuted` C46, refuted: the declaration of a virtual destructor ends the declaration before `= 0` or `= default`.
* `C46_export_refuted` C46, refuted: an exported function without attributes and leading specifiers: `export` runs into the return type.
* `C46_pure_refuted` C46, refuted: `virtual T f() = 0` has ` = 0` in front of the return type and twice behind the parameters.
* `C46_cast_comment_refuted` C46, refuted: the declaration of a conversion operator with a comment and without specifiers is never printed: the format asks for a second builder that is not passed.
* `C47_typename_function_refuted` C47, refuted: the type of a function with attributes prints as the attributes only.
* `C47_typedef_refuted` C47, refuted: a typedef of an array of two dimensions: the second bound comes after the end of the statement.
* `C48_using_namespace_comment_refuted` With a comment it is wrong: `$S` is printed for the name, the name where the comment should be, and no line break.
* `C49_def_constructor_refuted` C49, refuted: a constructor or destructor made by `def_constructor` or `def_destructor` cannot be printed before it is put into a body: the parent is null.
* `C49_def_enum_class_fwd_refuted` C49, refuted: `def_enum` accepts a scoped enum declaration without underlying type, and printing it fails.
* `C49_def_typedef_struct_refuted` C49, refuted: `def_typedef` of a struct definition does not make it the parent of the struct, so that the printed text is `typedef struct A { ... };` followed by `B;`.
* `C56_arrow_refuted` C56, what is false: a default value with `->` in it ends the process.
* `C56_less_refuted` C56, what is false: a default value with `<` in it makes the parser read behind the tokens.
* `C56_bound_refuted` C56, what is false: an array without a bound prints as a text that is not parsed any more.
* `C56_operator_refuted` C56, what is false: `--` becomes `-`.
* `C56_brace_refuted` C56, what is false: what stands behind a closing brace that has no opening one is dropped without a message.
* `C56_delete_refuted` C56, what is false: a deleted function is not parsed.
* `C56_default_refuted` C56, what is false: `= default` is dropped.
* `C56_struct_refuted` C56, what is false: printing the code of a struct and parsing the text again gives another text, a line longer.
* `C56_unnamed_refuted` C56, what is false: a function whose parameters have no names is taken for a variable when it stands in a body.
* `C56_enum_refuted` C56, what is false: a file may not declare an enum with its type. The parser reads a token in front of the first one.
* `C56_prefix_refuted` C56, what is false: the function `A` of a class `AB` is taken for a constructor, and what comes in front of it is missed.
* `C56_first_refuted` C56, what is false: a variable of a file may not begin with `volatile`, `thread_local` or one of the types of Microsoft's compiler.
* `C56_inplace_refuted` C56, what is false: of a variable declared with its struct the members become bounds of an array, twice.
* `C56_unnamed_enum_refuted` C56, what is false: an enum without a name prints as one named `(null)`.
* `C56_enum_class_refuted` C56, what is false: `enum class` loses its `class`.
* `C56_enumerator_refuted` C56, what is false: a comma inside parentheses of an enumerator's value ends the process, and so does an attribute of an enumerator.
* `C56_alias_refuted` C56, what is false: a using of a qualified name is not parsed, and the alias of a function type gets the word `(null)`.
* `C56_parent_refuted` C56, what is false: a class with a parent cannot be printed (the call has an argument too many); a struct with one can.
* `C56_base_access_refuted` C56, what is false:
* `C56_union_refuted` C56, what is false: a union cannot be declared without its members, a semicolon among them becomes a variable called `;` of the type `;`, and a typedef among them is not parsed.
* `C56_linkage_refuted` C56, what is false: a linkage block inside another one is not parsed.
* `C56_destructor_refuted` C56, what is false: a destructor in a struct is printed without the name of the struct. Its parent is the body, which has none.
* `C56_explicit_refuted` C56, what is false: `explicit` is dropped.
* `C56_function_refuted` C56, what is false: an operator of a call, a function with `noexcept`, and a type behind the parameters are refused.
* `C56_dots_refuted` C56, what is false: the dots of a function that takes more arguments get a type.
* `C56_function_pointer_refuted` C56, what is false: a variable that is a pointer to a function gets a second semicolon.
* `C57_lost_refuted` C57, what is false: that a stream keeps what is written to it. Whatever is written to a new stream by a first call, nothing of it is left once a second one has extended the file.
* `C57_read_refuted` C57, what is false: that a read stops at the end of the file. It copies as many bytes as it is asked for, from outside the buffer too.
* `C57_write_refuted` C57, what is false: that a write behind the end of the file is refused. It copies a negative number of bytes.
* `C58_header_only_refuted` C58, what is false: that a table with names but no rows is written. Nothing is.
* `C58_names_refuted` C58, what is false: that the names are written. If the first column has none, the others' are not.
* `C58_short_column_refuted` C58, what is false: that a column that is too short is noticed. Its cells are read behind the end of the array.
* `C58_string_refuted` C58, what is false: that `csv_write_string` gives the text of the table. Of the whole text only the last end of the line is left, because every write that extends the stream drops what it held.
* `C61_find_array_refuted` C61, refuted for the deep search: what is in an array is not found.
* `C61_unnamed_refuted` C61, refuted for unnamed children: looking for a name among children one of which has none reads a null pointer.
* `C61_pointer_refuted` C61, refuted for pointers: the pointer to a child that an append returned is no longer one after eight more appends.
* `C61_alloc_at_refuted` C61, refuted for `adt_alloc_at` in the middle: the new node is not empty, it is the sibling that was there.
* `C61_move_refuted` C61, refuted for `adt_move_node`: the node is copied to its new place and stays at the old one.
* `C61_clib_refuted` C61, refuted for the C library: the first append to an empty branch reads far outside the array, whatever is appended to whichever branch.
* `C61_out_of_memory_refuted` C61, refuted for a failed allocation: `adt_append_obj` is to return null if the array of the new object cannot be allocated, and stops the program instead, as it removes the node again.
* `C61_word_index_refuted` C61, refuted for words as indices: a step that is no number leads to the first element of an array.
* `C61_remove_refuted` C61, refuted for removing:
* `C62_builder_refuted` C62 is false where failures are not fatal: a builder whose file cannot be opened has no buffer, and the first thing printed goes through it.
* `C62_builder_short_refuted` C62 is false of a write that the system cuts off: the session ends as if nothing were wrong, fatal failures or not, and the file holds a part of the text.
* `C62_builder_not_atomic_refuted` C62 is false of replacing a file in one step: if there was one, there is a moment at which its old content is gone and nothing of the new one is there.
* `C62_close_twice_refuted` C62 is false of closing a file twice: the name is freed twice.
* `C62_short_write_refuted` C62 is false of a write that the system cuts off: `file_write` answers that it has written, and stands behind bytes that are not there.
* `C62_failed_write_refuted` C62 is false of a write that fails: the position moves all the same, so the next write leaves a hole of zeros.
* `C62_read_over_end_refuted` C62 is false of reading over the end: `file_read` answers that it has read, and the position moves behind the end, so the next write leaves a hole.
* `C62_append_tell_refuted` C62 is false of a file opened for appending: `file_tell` tells how many bytes were written, not where they are.
* `C62_write_at_moves_refuted` C62 is false of `file_write_at` at the position: it moves the position, which it does nowhere else.
* `C62_seek_refuted` C62 is false of seeking in front of the beginning: `file_seek` answers 0, and the position is where it was.
* `C62_read_contents_refuted` C62 is false of a file that is empty, missing or refused: the data and the size are whatever was on the stack.
* `C62_short_read_refuted` C62 is false of a read that the system cuts off: the call does not look at the number of bytes, and the rest is whatever the memory held.
* `C62_parse_file_refuted` C62 is false of an empty or missing file: `parse_file` goes through a pointer that was never stored.
* `C62_two_columns_refuted` C62 is false of a file with one column: the second one is read behind the end of the columns.
* `C63_no_style_refuted` C63 is false of a style that is null: the program goes through a builder that was never stored. The parameter may be null: the function asks (26).
* `C63_unquoted_refuted` C63 is false of names with spaces: nothing is quoted, and different requests are the same command.
* `C64_nested_else_refuted` C64 is false of a block inside the part behind the `#else`: its `#endif` is taken for that of the outer block and dropped, and the outer one is kept instead, so that what followed the inner block is inside it now.
* `C64_elif_refuted` C64 is false of `#elif`: the part behind it is left out too, although it is there for when the condition does not hold.
* `C64_other_body_refuted` C64 is false of the loop over inlines.hpp (c_library.cpp 1227), which passes the bodies of another loop along: what is behind the `#else` lands in that other body.
* `C64_unclosed_refuted` C64 is false of a block that is never closed: the rest of the body is lost without a word.
* `C65_one_column_refuted` C65 is false of a file with one column: the second one is read all the same.
* `C65_name_refuted` C65 is false of names that are no identifiers: `a b` becomes `ab`, and `a=3` gives the enumerator a value, so that the rows of the table no longer belong to the enumerators behind it; the program is stopped at others.
* `C65_backslash_refuted` C65 is false of a backslash in the second column, as a string literal does not end there.
* `C66_identifier_refuted` C66 fails: a reference leaves a name that is no identifier.
* `C66_distinct_refuted` C66 fails: `void f( ptr, int )` and `void f( int* )` get the same name.
* `C68_adjacent_refuted` C68 is false of a region right behind another one:
* `C68_at_end_refuted` C68 is false of a region at the end of the body: there is no entry behind it, and appending that trips an assertion.
* `C68_unclosed_refuted` C68 is false of a region that is never closed: the search runs off the end of the body, and a null pointer is read.
* `C68_prefix_refuted` C68 is false of a name that another one begins with: that region is exchanged too.
* `C69_class_refuted` C69 is false of `enum class`: neither the type nor the macro is printed, nor `class`.
* `C69_class_text_refuted` C69 is false of `enum class`: the macro is not printed, and C takes the enum for an `int`.
* `C69_stale_comment_refuted` C69 is false of a file in which a comment stands where the name for the type ends:
