{"id": "C01", "title": "mem_set fills exactly the requested range", "statement": "After mem_set(dest,c,n) every byte of [dest,dest+n) equals c, every other byte of memory is unchanged, and no byte outside the range is accessed, although the implementation writes bytes, 32-bit words and 64-bit words in overlapping stages chosen by length and alignment.", "quantifier": "every destination address, fill byte, length and prior memory", "why_tests_cant": "the stages depend on length and on address alignment modulo 8; a test samples a handful of (length, alignment) pairs", "anchors": ["base/dependencies/memory.hpp: mem_set"]}
{"id": "C02", "title": "mem_move copies as if through a temporary", "statement": "After mem_move(dest,src,n) the destination range holds the bytes that the source range held before the call, whatever the overlap and relative alignment; bytes outside the destination are unchanged and nothing outside the two ranges is accessed.", "quantifier": "every dest, src, length, overlap and prior memory", "why_tests_cant": "overlap direction x co-alignment x length is unbounded; a wrong copy direction only shows for particular overlaps", "anchors": ["base/dependencies/memory.hpp: mem_move, mem_copy"]}
{"id": "C03", "title": "mem_find returns the first occurrence", "statement": "mem_find(data,c,n) returns the address of the first byte equal to c among the first n bytes, and null exactly when there is none, even though it scans a word at a time; it reads only inside [data,data+n).", "quantifier": "every data address/alignment, byte, length and memory", "why_tests_cant": "the word-at-a-time zero-byte trick must hold for all 2^64 words", "anchors": ["base/dependencies/memory.cpp: mem_find"]}
{"id": "C04", "title": "Alignment helpers round up to the least multiple", "statement": "For a power-of-two alignment, align_forward returns the least address >= ptr that is a multiple of the alignment; align_forward_s64 does so for every positive alignment; is_power_of_two accepts exactly the powers of two.", "quantifier": "every pointer/value and alignment", "why_tests_cant": "all 64-bit values", "anchors": ["base/dependencies/memory.hpp: align_forward, align_forward_s64, is_power_of_two"]}
{"id": "C05", "title": "Arena allocations are in bounds, aligned and disjoint", "statement": "For any sequence of allocations (one alignment throughout, arena start aligned to it) and clears, every block handed out since the last clear is aligned, lies inside the arena memory and is disjoint from every other one; requests that do not fit are refused and leave the arena as it was.", "quantifier": "every arena, every request sequence", "why_tests_cant": "the property is about all histories of requests", "anchors": ["base/dependencies/memory.cpp: arena_allocator_proc", "base/dependencies/memory.hpp: arena_init_from_memory, arena_size_remaining"]}
{"id": "C06", "title": "Pool blocks are never handed out twice", "statement": "For any legal history of allocations and frees of a pool, a block returned by an allocation is not among the blocks currently live, all live blocks are pairwise disjoint and inside the backing memory, and exactly num_blocks allocations can be live at once.", "quantifier": "every pool geometry and every history of alloc/free/clear", "why_tests_cant": "quantifies over all histories", "anchors": ["base/dependencies/memory.cpp: pool_init_align, pool_allocator_proc, pool_clear"]}
{"id": "C07", "title": "resize keeps the old contents", "statement": "Resizing a block through the default policy yields a block whose first min(old,new) bytes are those of the old block; size 0 frees; null old allocates.", "quantifier": "every old/new size and content", "why_tests_cant": "all sizes and contents", "anchors": ["base/dependencies/memory.hpp: default_resize_align", "base/dependencies/memory.cpp: default_resize_align"]}
{"id": "C08", "title": "Array operations behave like list operations", "statement": "Any sequence of append, append_items (C library), pop, remove_at, clear, fill, back, reserve, grow, set_capacity behaves on the element sequence exactly as the corresponding list operation, whatever reallocations happen underneath; an operation outside its precondition is the only way to fail.", "quantifier": "every element type, initial capacity, operation history", "why_tests_cant": "reallocation points depend on the history", "anchors": ["base/dependencies/containers.hpp: array_*", "gen_c_library/components/containers.array.hpp"]}
{"id": "C09", "title": "Array capacity invariant", "statement": "In every reachable state of an Array, Num <= Capacity and every access made by the operations is inside the allocated storage.", "quantifier": "every history of array operations", "why_tests_cant": "all histories", "anchors": ["base/dependencies/containers.hpp: array_append, array_grow, array_set_capacity, array_resize"]}
{"id": "C10", "title": "HashTable get returns the latest set", "statement": "After any history of set/clear/rehash/grow on a HashTable, get(key) returns a pointer to the value most recently set for key since the last clear, and null iff the key was not set since then.", "quantifier": "every key/value history, every growth point", "why_tests_cant": "depends on the collision structure and on rehash points of arbitrary histories", "anchors": ["base/dependencies/containers.hpp: hashtable_set, hashtable_get, hashtable_rehash, hashtable_grow, hashtable__find"]}
{"id": "C11", "title": "HashTable removal forgets exactly that key", "statement": "After hashtable_remove(key) get(key) is null and every other key still yields its value.", "quantifier": "every reachable table and key", "why_tests_cant": "chains of arbitrary shape must be rebuilt", "anchors": ["base/dependencies/containers.hpp: hashtable_remove, hashtable_rehash_fast", "gen_c_library/components/containers.hashtable.hpp"]}
{"id": "C12", "title": "The generated C hashtable agrees with the C++ one", "statement": "For any history, the C-library hashtable returns for every key what the map semantics of set/get dictates.", "quantifier": "every history", "why_tests_cant": "all histories", "anchors": ["gen_c_library/components/containers.hashtable.hpp: _get, _rehash"]}
{"id": "C13", "title": "crc32/crc64 compute the polynomial remainder", "statement": "crc32(data) and crc64(data), computed with 256-entry tables, equal the bit-at-a-time reflected (resp. table) CRC with polynomial 0xEDB88320 for every byte string.", "quantifier": "every byte string", "why_tests_cant": "all strings", "anchors": ["base/dependencies/hashing.cpp: crc32, crc64"]}
{"id": "C14", "title": "Interning returns the content it was given", "statement": "cache_str(s) returns a string with the same bytes as s, the same interned pointer for equal strings, and different pointers for different strings; earlier interned strings keep their contents.", "quantifier": "every sequence of strings", "why_tests_cant": "keyed only by a 32-bit hash: colliding strings exist and no finite test set exhibits absence", "anchors": ["base/components/interface.cpp: cache_str, get_cached_str_allocator"]}
{"id": "C15", "title": "StrBuilder append is concatenation", "statement": "Every sequence of StrBuilder appends yields the concatenation of the pieces, with length equal to the sum, a terminating NUL right after the content and length <= capacity; growth never loses content.", "quantifier": "every initial content/capacity and every sequence of appended strings", "why_tests_cant": "growth points depend on the history", "anchors": ["base/dependencies/strings.hpp: strbuilder_append_c_str_len, strbuilder_make_space_for, strbuilder_make_length", "base/dependencies/strings.cpp"]}
{"id": "C16", "title": "StrBuilder trim and strip_space", "statement": "strbuilder_trim(cut) removes exactly the longest prefix and suffix made of cut-set characters; strbuilder_strip_space removes exactly the whitespace characters and keeps the order of the rest.", "quantifier": "every content and cut set", "why_tests_cant": "all strings", "anchors": ["base/dependencies/strings.cpp / strings.hpp: strbuilder_trim, strbuilder_strip_space"]}
{"id": "C17", "title": "Integer formatting and parsing round-trip", "statement": "i64_to_str/u64_to_str in base b followed by c_str_to_i64 in base b gives back the integer, for base 10 and base 16.", "quantifier": "every integer of the type, base 10 and 16", "why_tests_cant": "2^64 values", "anchors": ["base/dependencies/string_ops.cpp: u64_to_str, i64_to_str, c_str_to_i64"]}
{"id": "C18", "title": "Str comparison functions", "statement": "str_are_equal is byte equality; str_compare is 0 exactly on agreement up to the shorter/NUL; str_contains and str_starts_with are substring and prefix tests.", "quantifier": "every pair of strings", "why_tests_cant": "all strings", "anchors": ["base/dependencies/strings.hpp: str_are_equal, str_compare_len, str_contains, str_starts_with", "base/dependencies/string_ops.hpp: c_str_compare_len"]}
{"id": "C19", "title": "token_fmt substitutes exactly the given tokens", "statement": "token_fmt(name1,value1,...,template) returns the template in which every <name> whose name was given is replaced by its value and everything else is copied unchanged; substituted text is not rescanned; bindings of one call do not leak into the next.", "quantifier": "every template, binding list (names with distinct crc32), sequence of calls", "why_tests_cant": "all templates", "anchors": ["base/components/interface.untyped.cpp: token_fmt_va", "base/components/inlines.hpp: token_fmt_impl"]}
{"id": "C20", "title": "Specifier lists", "statement": "specifiers_append adds at the end until the fixed capacity and then fails without change; specifiers_has/index_of answer membership; specifiers_remove removes the given specifier, preserving the order of the others, and to_specs / iteration enumerate in order.", "quantifier": "every specifier sequence", "why_tests_cant": "all sequences of operations", "anchors": ["base/components/inlines.hpp: specifiers_append, specifiers_has, specifiers_index_of, specifiers_remove"]}
{"id": "C21", "title": "Body append keeps order and count", "statement": "Appending codes to a body gives a body that iterates its entries in append order, whose NumEntries is the number of appended entries, and whose entries have the body as parent; appending a body appends its entries.", "quantifier": "every sequence of appends and every heap of nodes", "why_tests_cant": "unbounded lists linked through shared node fields", "anchors": ["base/components/inlines.hpp: code_append, body_append, body_append_body, begin_CodeBody, next_CodeBody"]}
{"id": "C22", "title": "Parameter lists keep order and count", "statement": "def_params / params_append of n single parameters (not lists) yields a list that iterates and serializes the n parameters in order.", "quantifier": "every sequence of single parameters", "why_tests_cant": "all lists", "anchors": ["base/components/inlines.hpp: params_append, params_get", "base/components/interface.upfront.cpp: def_params, def_params_arr", "base/components/code_serialization.cpp: params_to_strbuilder_ref"]}
{"id": "C23", "title": "Fresh AST nodes", "statement": "make_code returns a zeroed node distinct from every node returned before, for any number of calls and pool rollovers.", "quantifier": "every number of calls and pool size", "why_tests_cant": "all histories", "anchors": ["base/components/interface.cpp: make_code"]}
{"id": "C24", "title": "Macro registry", "statement": "register_macro(m) makes lookup_macro(m.name) return m until overwritten by a later registration of that name; other names are unaffected.", "quantifier": "every history of registrations", "why_tests_cant": "keyed by crc32 of the name; all histories", "anchors": ["base/components/interface.cpp: register_macro, lookup_macro, register_macros"]}
{"id": "C25", "title": "Keyword recognition", "statement": "str_to_specifier / str_to_toktype map each keyword spelling to its enumerator and every other string to Invalid.", "quantifier": "every string", "why_tests_cant": "a 32-bit hash of the string is compared, never the string", "anchors": ["base/components/gen/especifier.hpp: str_to_specifier", "base/components/gen/etoktype.hpp: str_to_toktype"]}
{"id": "C26", "title": "Lexing terminates and stays inside the input", "statement": "lex(content) terminates and reads only the bytes of content and its terminating NUL.", "quantifier": "every input string", "why_tests_cant": "all inputs; loops advance by hand-written cursor code", "anchors": ["base/components/lexer.cpp: lex, lex_preprocessor_directive, lex_preprocessor_define"]}
{"id": "C27", "title": "Token texts are ordered disjoint slices of the input", "statement": "Every token produced by lex is a contiguous slice of the input, tokens appear in input order without overlap, and the bytes between consecutive tokens are only whitespace or separator characters that the lexer drops by design.", "quantifier": "every input string and macro table", "why_tests_cant": "all inputs", "anchors": ["base/components/lexer.cpp: lex"]}
{"id": "C28", "title": "Token positions", "statement": "The line and column recorded in a token are those of its first byte.", "quantifier": "every input string", "why_tests_cant": "all inputs", "anchors": ["base/components/lexer.cpp: lexer_move_forward, lex"]}
{"id": "C29", "title": "Upfront constructors validate and build", "statement": "Each def_* constructor returns the invalid code exactly when an argument is invalid for it, and otherwise a node of the documented type (definition if a body was given, forward declaration otherwise) holding the given name, attributes, specifiers and body.", "quantifier": "every argument combination", "why_tests_cant": "all combinations of node types", "anchors": ["base/components/interface.upfront.cpp: def_*"]}
{"id": "C30", "title": "Operator overload classification", "statement": "def_operator accepts an operator/parameter/return combination iff C++ arity rules allow it, and classifies it as member or non-member accordingly.", "quantifier": "every operator, parameter list and return type", "why_tests_cant": "all combinations", "anchors": ["base/components/interface.upfront.cpp: operator__validate"]}
{"id": "C31", "title": "Body constructors", "statement": "def_*_body(args) yields a body of the requested kind with the given entries in order, or the invalid code if an entry is null or of a type not allowed in that kind of body.", "quantifier": "every list of entries", "why_tests_cant": "all lists", "anchors": ["base/components/interface.upfront.cpp: def_*_body, def_*_body_arr", "base/components/ast_case_macros.cpp"]}
{"id": "C32", "title": "Structural equality", "statement": "code_is_equal is reflexive, symmetric, and two equal codes serialize identically.", "quantifier": "every pair of ASTs", "why_tests_cant": "all ASTs", "anchors": ["base/components/ast.cpp: code_is_equal"]}
{"id": "C33", "title": "Body validation", "statement": "code_validate_body terminates and returns true exactly when every entry of the body is allowed in that kind of body.", "quantifier": "every body", "why_tests_cant": "all bodies", "anchors": ["base/components/ast.cpp: code_validate_body"]}
{"id": "C34", "title": "Serialization of a body is the concatenation of its entries", "statement": "Serializing a body yields the concatenation of the serializations of its entries, in order.", "quantifier": "every body", "why_tests_cant": "all ASTs", "anchors": ["base/components/code_serialization.cpp: body_to_strbuilder_ref", "base/components/ast.cpp: code_to_strbuilder_ptr"]}
{"id": "C35", "title": "Context reset and re-use", "statement": "Across any history of init, deinit, set_context and make_code without reset, in which the context that holds the constants is freed last, the library constants stay valid: they are distinct nodes of a live context, no later init changes them, and no new node aliases or alters them; deinit of the last context followed by init is like a first init. reset does not keep this: new nodes then alias the constants.", "quantifier": "every history of init/deinit/set_context/make_code and every pool size", "why_tests_cant": "all histories", "anchors": ["base/components/interface.cpp: init, reset, deinit, define_constants"]}
{"id": "C36", "title": "Formatted printing stays inside its buffer", "statement": "c_str_fmt_va(buf,max,...) never writes outside buf[0,max) and returns the number of characters written plus one; text that fits is reproduced exactly.", "quantifier": "every format string, arguments and buffer size", "why_tests_cant": "all format strings", "anchors": ["base/dependencies/printing.cpp: c_str_fmt_va, _print_string, _print_char"]}
{"id": "C37", "title": "CSV parse recovers the cells", "statement": "csv_parse of a text made of rows of cells joined by the delimiter (bare or quoted, with blanks around them, the last cell of a row not empty, quoted cells not empty, the delimiter not white space) yields columns whose cells are those texts in order, with the first row as names if asked for; a row with fewer cells than those before it and a quote that is not closed are reported; for every text it stays inside the buffer and ends.", "quantifier": "every table of cells; every text for safety", "why_tests_cant": "all tables and texts", "anchors": ["base/dependencies/parsing.cpp: csv_parse_delimiter"]}
{"id": "C38", "title": "Fallback allocator", "statement": "Blocks from the fallback allocator of a context are disjoint and inside their bucket for every request sequence; a new bucket is opened exactly when the current one is full.", "quantifier": "every request sequence", "why_tests_cant": "all histories", "anchors": ["base/components/interface.cpp: fallback_allocator_proc"]}
{"id": "C39", "title": "C string helpers", "statement": "c_str_len, c_str_copy, c_str_copy_nulpad, c_str_reverse, c_str_to_lower/upper, c_str_skip, char_first_occurence satisfy their usual specification on every NUL-terminated string.", "quantifier": "every string", "why_tests_cant": "all strings", "anchors": ["base/dependencies/string_ops.hpp", "base/dependencies/string_ops.cpp"]}
{"id": "C40", "title": "Builder output", "statement": "The file content written by a Builder is the concatenation, in order, of everything printed to it by print and by print_fmt calls whose output fits the format buffer; pad_lines adds one newline.", "quantifier": "every sequence of print / print_fmt / pad_lines", "why_tests_cant": "all histories", "anchors": ["base/auxiliary/builder.cpp"]}
{"id": "C41", "title": "File scanning strips only the intellisense block", "statement": "scan_file returns the file content with everything up to and including the line of the first #endif after an #ifdef INTELLISENSE_DIRECTIVES removed, and the whole content if there is none; whatever it returns is the end of the content; on a content that ends with a line whose last character is neither white space nor # it reads only inside the file content.", "quantifier": "every file content", "why_tests_cant": "all contents", "anchors": ["base/auxiliary/scanner.cpp: scan_file"]}
{"id": "C42", "title": "Comments", "statement": "def_comment(s) yields s with // before every line, ending in a newline.", "quantifier": "every string", "why_tests_cant": "all strings", "anchors": ["base/components/interface.upfront.cpp: def_comment"]}
{"id": "C43", "title": "Whitespace visualisation and joining", "statement": "strbuilder_join separates the parts by the glue; visualize_whitespace replaces each space/tab/newline by its marker and keeps every other character.", "quantifier": "every list of parts, every string", "why_tests_cant": "all strings", "anchors": ["base/dependencies/strings.cpp / strings.hpp: strbuilder_join, str_visualize_whitespace"]}
{"id": "C44", "title": "Duplicating a node", "statement": "code_duplicate yields a fresh node equal to the original apart from having no parent, and leaves the original unchanged.", "quantifier": "every node", "why_tests_cant": "all nodes", "anchors": ["base/components/ast.cpp: code_duplicate"]}
{"id": "C45", "title": "Text of class, struct, union and enum definitions", "statement": "Serializing a class/struct/union/enum definition or forward declaration yields: [export ] keyword, attributes, specifiers (final), name, parent list with its access words (\": public P, public I\"), underlying type, the braces around the text of the body, and a \";\" with inline comment exactly when the code stands on its own (no parent, or a parent that is not a Typedef).", "quantifier": "every such node whose parts serialize, every heap around it", "why_tests_cant": "all ASTs: nested bodies of arbitrary depth", "anchors": ["base/components/code_serialization.cpp: class_to_strbuilder_*, struct_to_strbuilder_*, union_to_strbuilder_*, enum_to_strbuilder_*"]}
{"id": "C46", "title": "Text of functions, operators, constructors and destructors", "statement": "Serializing a function, operator, cast operator, constructor or destructor yields attributes, leading specifiers, return type, name, the parameter list in parentheses, the trailing specifiers (const, override, noexcept, = 0, = delete ...) each exactly once and in the list order, and the body in braces for a definition or \";\" for a declaration.", "quantifier": "every such node whose parts serialize", "why_tests_cant": "all ASTs, specifier lists and parameter lists", "anchors": ["base/components/code_serialization.cpp: fn_to_strbuilder_*, code_op_to_strbuilder_*, opcast_to_strbuilder_*, constructor_to_strbuilder_*, destructor_to_strbuilder_*"]}
{"id": "C47", "title": "Text of variables, parameters, typenames, usings and typedefs", "statement": "Serializing a variable, parameter, typename, using or typedef yields specifiers, type, name, array/bitfield suffix, initialiser and inline comment in C++ declaration order; chains of variables joined by NextVar and parameter lists are separated by commas.", "quantifier": "every such node whose parts serialize", "why_tests_cant": "all ASTs, chains of any length", "anchors": ["base/components/code_serialization.cpp: var_to_strbuilder_ref, params_to_strbuilder_ref, typename_to_strbuilder_ref, using_to_strbuilder_ref, typedef_to_strbuilder_ref, specifiers_to_strbuilder_ref"]}
{"id": "C48", "title": "Text of directives and wrappers", "statement": "Serializing a preprocessor directive, namespace, extern block, module, friend, template, access label, comment or raw text yields its keyword, name/content and the text of what it wraps, and nothing else.", "quantifier": "every such node whose parts serialize", "why_tests_cant": "all ASTs", "anchors": ["base/components/code_serialization.cpp: include_to_strbuilder_ref, pragma_..., preprocess_..., define_..., namespace_..., extern_..., module_..., friend_..., template_...", "base/components/ast.cpp: code_to_strbuilder_ptr"]}
{"id": "C49", "title": "What def_* builds prints as the declaration asked for", "statement": "Calling a def_* constructor with a name and already printable parts returns a code whose serialization is the C++ declaration of that name and those parts, and the call changes the serialization of no code that existed before it.", "quantifier": "every name, every printable part, every prior heap", "why_tests_cant": "composition of constructor and serializer over all ASTs", "anchors": ["base/components/interface.upfront.cpp: def_*", "base/components/code_serialization.cpp"]}
{"id": "C50", "title": "Parsing leaves earlier codes alone", "statement": "A call of any parse_* function that returns, and any sequence of such calls, leaves every code that existed before it exactly as it was, except that the parent recorded in the shared constant t_empty may change.", "quantifier": "every parse_* function, every content, every history of parses, every prior set of codes", "why_tests_cant": "quantifies over all contents and over all codes made earlier; the parser mutates shared nodes through pointers", "anchors": ["base/components/interface.parsing.cpp: parse_*", "base/components/parser.cpp: parser_parse_*"]}
{"id": "C51", "title": "Parsing yields the right kind of code", "statement": "A parse_* function that returns yields a code freshly made by that call whose type is one of those documented for the function (class: Class or Class_Fwd, and so on), or CodeInvalid.", "quantifier": "every parse_* function and content", "why_tests_cant": "all contents", "anchors": ["base/components/interface.parsing.cpp: parse_*", "base/components/parser.cpp: parser_parse_*"]}
{"id": "C52", "title": "Parses share no codes", "statement": "The codes made by one parse refer only to each other and to the library constants, never to codes made by an earlier parse or by the user; later parses do not change them.", "quantifier": "every parse_* function, content and history", "why_tests_cant": "aliasing between ASTs shows only for particular combinations of contents", "anchors": ["base/components/interface.parsing.cpp: parse_*", "base/components/parser.cpp: parser_parse_*"]}
{"id": "C53", "title": "The library stays ready to parse", "statement": "init leaves the library ready to parse, and after any parse that returns it is ready again: the constants are intact, the token index is inside the token array and the stack of parser scopes is what it was before the call.", "quantifier": "every configuration of init, every parse_* function and content", "why_tests_cant": "every function has dozens of return paths, each of which must restore the scope stack", "anchors": ["base/components/interface.parsing.cpp: parse_*", "base/components/parser.cpp: parser_parse_*", "base/components/interface.cpp: init, define_constants"]}
{"id": "C54", "title": "Parsing terminates", "statement": "Every parse_* function returns or reports a fatal failure after finitely many steps on every content without the keyword operator (and, for parse_function and parse_operator, without const). With them the parser can loop forever.", "quantifier": "every parse_* function and content", "why_tests_cant": "non-termination depends on particular token sequences inside nested loops", "anchors": ["base/components/interface.parsing.cpp: parse_*", "base/components/parser.cpp: parser_parse_*"]}
{"id": "C55", "title": "Stripping of formatting", "statement": "The texts of types, attributes, default values and definitions are stripped of formatting: words (letters, string and character literals with escapes, complete block comments) separated by runs of blanks come out unchanged with one space between them, one leading space is dropped, and stripping that again changes nothing. On every text without block comments the function succeeds, reads only the text and does not make it longer; it ends on every text.", "quantifier": "every text", "why_tests_cant": "all texts: literals, escapes, comments and blanks in any order", "anchors": ["base/components/parser.cpp: parser_strip_formatting"]}
{"id": "C56", "title": "Parse, then print", "statement": "A content whose tokens make up a variable, a function, a using, a typedef, an enum, a class or struct with its members (a struct may have up to five bases; labels, comments, variables, functions, usings, typedefs, enums, nested classes, structs and unions to any depth, declarations of classes, static assertions, preprocessor directives: #include, #define with or without parameters, #if, #ifdef, #ifndef, #elif, #else, #endif, #pragma and other lines), a union, a template of one of these, a namespace, a linkage block, or a whole file of these is parsed successfully, whatever white space stands between the tokens and whatever follows the declaration; the call makes a new code, touches no other, leaves the token index right behind the declaration, and the code prints as the normal form of the declaration: the same specifiers, types, names, bounds, parameters, initialisers and members in the same order, each exactly once.", "quantifier": "every declaration of the described form with any names, specifiers, number of members, depth of nesting and layout, every prior state of the library", "why_tests_cant": "quantifies over all declarations, all depths of nesting and all layouts, through lexer, parser and serializer", "anchors": ["base/components/interface.parsing.cpp: parse_*", "base/components/parser.cpp: parser_parse_*", "base/components/lexer.cpp: lex", "base/components/code_serialization.cpp"]}
{"id": "C57", "title": "Memory file streams", "statement": "A memory stream opened on a buffer or newly made behaves, under any history of seeks, tells, sizes, reads and writes that stay inside the stream, like a byte array with a position: each read returns exactly the bytes last written there, each write changes exactly the bytes it covers, and the position is where the calls left it. A stream opened read-only refuses every write and its buffer never changes; a stream on a buffer of fixed size takes what fits and never writes behind the buffer; a first write over the end of a growing stream stores all its bytes and extends the size.", "quantifier": "every buffer, every opening mode, every history of calls with any offsets and lengths", "why_tests_cant": "all histories of positions and lengths, and the boundary between the buffer and the grown copy", "anchors": ["base/dependencies/filesystem.cpp: file_stream_open, file_stream_new, file_stream_buf, memory_file_operations", "base/dependencies/filesystem.hpp: file_read, file_write, file_seek, file_seek_to_end, file_tell, file_size"]}
{"id": "C58", "title": "Writing comma-separated values", "statement": "Writing a table whose columns have the same number of rows writes exactly its text: the names of the columns in quotes if the first column has a name, then row after row, every cell once, cells separated by the delimiter, quotes doubled inside quoted cells. Parsing what was written gives back the names and the texts of all cells, whatever characters the quoted cells hold.", "quantifier": "every table, delimiter and cell text", "why_tests_cant": "all tables with all texts, through the formatter, the writer and the parser", "anchors": ["base/dependencies/parsing.cpp: csv_write_delimiter, csv_write_strbuilder_delimiter, adt_print_string", "base/dependencies/printing.cpp: c_str_fmt_file_va"]}
{"id": "C59", "title": "Printing is stable under parse-then-print", "statement": "Parsing a text in the form the library prints and printing the result gives the text back: variables, functions, usings, typedefs, enums and files of these come back byte for byte; a class, struct, union, namespace, linkage block or file with such blocks comes back with exactly one line break more for every pair of braces that holds something and no other byte changed. What comes back is again of that form, so after k rounds exactly k times that many line breaks were added.", "quantifier": "every declaration in printed form with any names, specifiers, types, members, depth of nesting, every number of rounds, every prior state of the library", "why_tests_cant": "all texts in normal form and all numbers of rounds, through lexer, parser and serializer", "anchors": ["base/components/interface.parsing.cpp: parse_*", "base/components/parser.cpp: parser_parse_*", "base/components/lexer.cpp: lex", "base/components/code_serialization.cpp"]}
{"id": "C60", "title": "Numbers of a data tree", "statement": "adt_parse_number reads a decimal integer below 2^63 (with or without a sign), a hexadecimal number below 2^63 written with 0x, and a number with a point (digits behind it, with or without digits in front of it, a sign, an exponent up to 7) as its value, whatever the node held and whatever follows the number, and returns the pointer right behind it; adt_print_number writes integers, hexadecimal numbers, numbers with an exponent and numbers that start with their point back as they were read, but for a plus, capital letters and the case of the exponent letter. adt_parse_number_strict does the same for texts that hold only characters of numbers, and leaves the node alone for all others.", "quantifier": "every numeral of these forms, every text behind it, every prior node", "why_tests_cant": "all numerals of all lengths, through the scanner and the formatter", "anchors": ["base/dependencies/parsing.cpp: adt_parse_number, adt_parse_number_strict, adt_print_number"]}
{"id": "C61", "title": "Data trees", "statement": "With a pointer to a node of a data tree, appending a string, number, object or array adds exactly that node behind the children of the node pointed to, returns a pointer to the new node, and changes nothing else of the tree and nothing of any other tree in memory; setting a node makes it that leaf; so for every history of such calls, however often the arrays have to grow. adt_find returns the first node with a name: the first child of an object with it, and otherwise, in a deep search, the first one below each child in turn; null if there is none. adt_query follows the steps of its text (names, indices, [value], [field=value]) to the node they lead to, or null. adt_destroy_branch frees every array of the tree exactly once, and nothing else.", "quantifier": "every tree, every place in it, every history of edits, every name and every query text of these steps", "why_tests_cant": "all shapes and depths of trees, all histories through growing arrays", "anchors": ["base/dependencies/parsing.cpp: adt_make_branch, adt_destroy_branch, adt_find, adt_alloc, adt_alloc_at, adt_query, adt_set_*, adt_append_*, adt_move_node, adt_swap_nodes, adt_remove_node"]}
{"id": "C62", "title": "Files", "statement": "An open file is the bytes it holds and a position: every history of file_read, file_write, their variants at an offset, seeks, file_tell and file_size answers, and leaves the file and the position, as the description of the calls says; no other file, name or descriptor changes at any moment. A write that the system cuts off or refuses stores a beginning of the bytes and nothing else. The modes of file_open_mode keep, empty or create the file as they say, a failed open changes nothing, file_close gives descriptor and name back. file_read_contents, scan_file, parse_file and the comma-separated readers work on exactly the bytes of the file and leave every file as it was. After builder_write the file of the builder holds exactly what was printed; if the process is killed at any moment, that file holds a beginning of it and every other file is as it was.", "quantifier": "every content, position, mode, history of calls, behaviour of the operating system (refusals, short transfers) and moment at which the process is killed", "why_tests_cant": "quantifies over histories of calls, over what the operating system does with each of them, and over crash points", "anchors": ["base/dependencies/filesystem.cpp: file_open_mode, file_close, file_size, file_read_contents, file_get_standard, _posix_file_open, _posix_file_seek, _posix_file_read, _posix_file_write", "base/dependencies/filesystem.hpp: file_seek, file_tell, file_read, file_write, file_write_at", "base/auxiliary/builder.cpp: builder_open, builder_write", "base/auxiliary/scanner.cpp: scan_file, parse_file, parse_csv_one_column, parse_csv_two_columns"]}
{"id": "C63", "title": "Codes through other programs", "statement": "clang_format_file and refactor_file run exactly one command, whose text names the program, its options, the style or script and the file; names without spaces cannot be confused. code_refactor_and_format writes the text of the code to the scratch file, runs the commands asked for in order, and returns the text scan_file reads from what they leave there, whatever they do; then the scratch file is gone, and the library has changed no other file, name or descriptor. If nothing is left in the file, the program stops.", "quantifier": "every code, path, script and style, every behaviour of the other programs, every state of the disk", "why_tests_cant": "the other programs may do anything to the disk", "anchors": ["base/helpers/misc.hpp: clang_format_file, refactor_file, code_refactor_and_format"]}
{"id": "C64", "title": "Leaving out conditional blocks", "statement": "Going through a body and leaving out the conditional blocks of given conditions appends to the new body, in order and unchanged, exactly every entry outside those blocks and, of such a block, the part behind its #else; blocks inside it may be nested to any depth. The body that is read is as it was.", "quantifier": "every body, every nesting of conditional blocks, every set of conditions", "why_tests_cant": "all nestings of directives", "anchors": ["gen_c_library/components/misc.hpp: ignore_preprocess_cond_block", "gen_c_library/c_library.cpp: the loops over parsed bodies"]}
{"id": "C65", "title": "Enums and tables of names from comma-separated values", "statement": "From a file with two columns of comma-separated values the generator makes an enum and a function (for the kinds of codes two): the enum has, in order, one enumerator for every row, named after the first cell, followed by the one that counts them and the one that fixes the underlying type; the table in the function has, in order, one row for every row of the file, with the text of the second cell (of the first cell in the first table of the kinds of codes) and its length. So the text of an enumerator is found under its value. Files, codes made before and the macro map are as they were.", "quantifier": "every file whose first column holds identifiers and whose second holds bodies of string literals, every layout (quotes, padding) of the cells, all three generators", "why_tests_cant": "all files; the whole chain of reading, splitting, formatting, lexing, parsing and printing", "anchors": ["base/helpers/base_codegen.hpp: gen_ecode, gen_eoperator, gen_especifier", "base/helpers/misc.hpp: parse_csv_two_columns", "base/components/inlines.hpp: token_fmt_impl"]}
{"id": "C66", "title": "Names for overloads", "statement": "Renaming a function to a name of its own gives it the name made of the prefix, its old name, its return type, the types of its parameters (specifiers, with ptr for a pointer, and name) in order, and its specifiers; nothing else of the function or of any other code changes. Two functions with the same old name, return type and specifiers get the same name only if their parameters have the same types, as long as no word of them contains an underscore or is the word of a specifier.", "quantifier": "every function, any number of parameters, types, specifiers, prefixes", "why_tests_cant": "all pairs of signatures", "anchors": ["gen_c_library/components/misc.hpp: rename_function_to_unique_symbol"]}
{"id": "C67", "title": "Macros that select a function by type", "statement": "The macro made for a number of slots, a name and a kind of operand is one logical line (every line but the last is continued), with one slot for every number from 1 to the given one, in order, each naming slot and macro, then the case for no match and the call with the arguments of that kind; a blank line follows. Nothing is left over from a macro made before.", "quantifier": "every number of slots, name, kind of operand, earlier calls", "why_tests_cant": "all numbers of slots and all earlier calls through a builder and a map that stay", "anchors": ["gen_c_library/components/misc.hpp: gen_generic_selection_function_macro", "base/components/inlines.hpp: token_fmt_impl"]}
{"id": "C68", "title": "Regions whose implementation is exchanged", "statement": "Going through a body and exchanging the region of a name appends to the new body, in order: in the place of each region (the pragma that begins it, the one that ends it and all between) what the generator makes, and every entry outside unchanged. The body that is read, and everything else, stays as it was. The entry behind a region is taken as it is.", "quantifier": "every body, region name, generator that makes a new body and changes nothing else", "why_tests_cant": "all bodies and all implementations put in", "anchors": ["gen_c_library/components/misc.hpp: swap_pragma_region_implementation", "gen_c_library/c_library.cpp: loop over the header of memory"]}
{"id": "C69", "title": "An enum of C++ for C", "statement": "Converting an enum with an underlying type appends two entries to a body: the enum, in which a macro that takes the type stands where the type was and nothing else differs (the enum itself, or a copy if it is in a body already), and a typedef that gives the type the name of the enum, printed as typedef TYPE NAME;. An enum is printed with that macro. Everything else stays as it was.", "quantifier": "every enum with an underlying type that reads as a type, every body, every state of the library", "why_tests_cant": "all enums, types, names and bodies", "anchors": ["gen_c_library/components/misc.hpp: convert_cpp_enum_to_c"]}
