{
 "claims": [
  {
   "property": "C01",
   "status": "proved",
   "theorems": [
    "Verif.C01_mem_set_exact",
    "Verif.C01_mem_set_null"
   ],
   "note": "All destinations, lengths and alignments of the x86-64 byte-level model."
  },
  {
   "property": "C02",
   "status": "proved",
   "theorems": [
    "Verif.C02_mem_move_as_if_buffered",
    "Verif.C02_mem_copy_disjoint"
   ],
   "note": "All overlaps and alignments."
  },
  {
   "property": "C03",
   "status": "proved",
   "theorems": [
    "Verif.C03_mem_find_first",
    "Verif.C03_mem_find_null_iff"
   ],
   "note": "All lengths and alignments."
  },
  {
   "property": "C04",
   "status": "proved",
   "theorems": [
    "Verif.C04_is_power_of_two_iff",
    "Verif.C04_align_forward_s64_least",
    "Verif.C04_align_forward_least",
    "Verif.C04_align_forward_rejects"
   ],
   "note": "align_forward_s64 for every positive alignment, pointer align_forward for powers of two."
  },
  {
   "property": "C05",
   "status": "proved",
   "theorems": [
    "Verif.Arena.C05_arena_sound_descending",
    "Verif.Arena.C05_arena_sound",
    "Verif.Arena.C05_alloc_served_iff",
    "Verif.Arena.C05_alloc_zeroes",
    "Verif.Arena.C05_mixed_alignment_refuted",
    "Verif.Arena.C05_mixed_alignment_out_of_bounds",
    "Verif.Arena.C05_size_remaining"
   ],
   "note": "Proved under the single (or non-increasing) alignment condition in the statement; the unconditional version is refuted by the two _refuted theorems."
  },
  {
   "property": "C06",
   "status": "proved",
   "theorems": [
    "Verif.Pool.C06_init_ok",
    "Verif.Pool.C06_live_blocks_sound",
    "Verif.Pool.C06_alloc",
    "Verif.Pool.C06_no_fault",
    "Verif.Pool.C06_free_frame",
    "Verif.Pool.C06_free_then_alloc",
    "Verif.Pool.C06_total_size",
    "Verif.Pool.C06_aligned",
    "Verif.Pool.C06_double_free_refuted",
    "Verif.Pool.C06_clear_total_size_refuted",
    "Verif.Pool.C06_misaligned_block"
   ],
   "note": "Legal histories; double free and clear accounting are refuted separately."
  },
  {
   "property": "C07",
   "status": "proved",
   "theorems": [
    "Verif.C07_resize_grow",
    "Verif.C07_resize_shrink",
    "Verif.C07_resize_zero",
    "Verif.C07_resize_null"
   ],
   "note": "default_resize_align."
  },
  {
   "property": "C08",
   "status": "proved",
   "theorems": [
    "Verif.Arr.C08_step_refines",
    "Verif.Arr.C08_history",
    "Verif.Arr.C08_precondition_violation_stops",
    "Verif.Arr.C08_append_at_refuted",
    "Verif.Arr.C08_cpp_append_items_refuted",
    "Verif.Arr.C08_clib_heap_refuted",
    "Verif.Arr.C08_clib_append_items_at_refuted",
    "Verif.Arr.C08_clib_append_at_empty_refuted",
    "Verif.Arr.C08_cpp_set_capacity_zero_refuted",
    "Verif.Arr.C08_resize_exposes_stale",
    "Verif.Arr.C08_append_at_end_refuted",
    "Verif.Arr.C08_clib_append_items_at"
   ],
   "note": "Every history of the list-like operations; the operations that do not behave (append_at variants, append_items of the C++ build, C library set_capacity) have refutation theorems."
  },
  {
   "property": "C09",
   "status": "proved",
   "theorems": [
    "Verif.Arr.C09_capacity_invariant",
    "Verif.Arr.C09_growth",
    "Verif.Arr.C09_resize"
   ],
   "note": "Every reachable state."
  },
  {
   "property": "C10",
   "status": "proved",
   "theorems": [
    "Verif.HTable.C10_get_returns_latest_set",
    "Verif.HTable.C10_map_visits_once",
    "Verif.HTable.C10_slot_refuted"
   ],
   "note": "Every history of set/clear/rehash/grow/remove of the C++ HashTable."
  },
  {
   "property": "C11",
   "status": "proved",
   "theorems": [
    "Verif.HTable.C11_remove_forgets_exactly",
    "Verif.HTable.C11_remove_entry_refuted"
   ],
   "note": "hashtable_remove; hashtable_remove_entry and hashtable_slot are refuted."
  },
  {
   "property": "C12",
   "status": "partial",
   "theorems": [
    "Verif.CTable.C12_first_key_lost_refuted",
    "Verif.CTable.C12_rehash_loses_key_refuted",
    "Verif.CTable.C12_phantom_key_refuted",
    "Verif.CTable.C12_buckets_never_grow",
    "Verif.CTable.C12_no_growth_partial"
   ],
   "note": "Proved for every history that stays within the load threshold, except for the first key; beyond that the claim is false of the code (refutation theorems)."
  },
  {
   "property": "C13",
   "status": "proved",
   "theorems": [
    "Verif.Crc.C13_crc32",
    "Verif.Crc.C13_crc64",
    "Verif.Crc.C13_burst_detected",
    "Verif.Crc.C13_injective_refuted"
   ],
   "note": "Table-driven CRCs equal the bitwise ones for every string; burst errors up to 32 bits detected; injectivity refuted."
  },
  {
   "property": "C14",
   "status": "proved",
   "theorems": [
    "Verif.Ctx.C14_interning",
    "Verif.Ctx.C14_collision_refuted_general",
    "Verif.Ctx.C14_collision_refuted",
    "Verif.Ctx.C14_long_not_shared_refuted",
    "Verif.Ctx.C14_too_long_stops_refuted"
   ],
   "note": "Every history of cache_str calls whose strings do not collide under CRC-32 and fit the string arenas; the unconditional version is refuted."
  },
  {
   "property": "C15",
   "status": "proved",
   "theorems": [
    "Verif.SB.C15_history",
    "Verif.SB.C15_appends_concatenate",
    "Verif.SB.C15_append_result",
    "Verif.SB.C15_clear_terminator_refuted",
    "Verif.SB.C15_clear_then_strip_refuted",
    "Verif.SB.C15_append_self_refuted"
   ],
   "note": "Every history of appends; the operations that break the terminator are refuted separately."
  },
  {
   "property": "C16",
   "status": "proved",
   "theorems": [
    "Verif.SB.C16_trim_space",
    "Verif.SB.C16_skip_line_actual",
    "Verif.SB.C16_trim",
    "Verif.SB.C16_trimSpec_meaning",
    "Verif.SB.C16_strip_space",
    "Verif.SB.C16_skip_line_refuted"
   ],
   "note": "trim and strip_space for every content; skip_line refuted."
  },
  {
   "property": "C17",
   "status": "proved",
   "theorems": [
    "Verif.Num.C17_i64_round_trip",
    "Verif.Num.C17_u64_round_trip",
    "Verif.Num.C17_u64_text",
    "Verif.Num.C17_i64_min_refuted",
    "Verif.Num.C17_u64_large_refuted",
    "Verif.Num.C17_base36_refuted",
    "Verif.Num.C17_auto_base_hex",
    "Verif.Num.C17_auto_base_dec"
   ],
   "note": "Every s64 but the least one, bases 2-10 and 16; the least s64, large u64 and base 36 are refuted."
  },
  {
   "property": "C18",
   "status": "proved",
   "theorems": [
    "Verif.Str.C18_are_equal",
    "Verif.Str.C18_starts_with",
    "Verif.Str.C18_contains",
    "Verif.Str.C18_compare_len",
    "Verif.Str.C18_embedded_nul_refuted",
    "Verif.Str.C18_starts_with_string_refuted",
    "Verif.Str.C18_starts_with_string_actual",
    "Verif.Str.C18_compare_len_sign_refuted",
    "Verif.Str.C18_of_c_str",
    "Verif.C18_back"
   ],
   "note": "Every pair of Strs without embedded NUL; the cases that fail are refuted."
  },
  {
   "property": "C19",
   "status": "proved",
   "theorems": [
    "Verif.TokenFmt.C19_substitution",
    "Verif.TokenFmt.C19_calls_independent",
    "Verif.TokenFmt.C19_unclosed_refuted",
    "Verif.TokenFmt.C19_full_buffer_hangs_refuted",
    "Verif.TokenFmt.C19_value_overflow_refuted",
    "Verif.TokenFmt.C19_collision_refuted"
   ],
   "note": "Every template made of literals, given tokens and other bracketed text whose result fits the buffer, provided the names do not collide under CRC-32; unclosed brackets, overlong results and collisions are refuted."
  },
  {
   "property": "C20",
   "status": "proved",
   "theorems": [
    "Verif.Ast.C20_iteration",
    "Verif.Ast.C20_append",
    "Verif.Ast.C20_append_full",
    "Verif.Ast.C20_index_of",
    "Verif.Ast.C20_has",
    "Verif.Ast.C20_remove_absent",
    "Verif.Ast.C20_remove",
    "Verif.Ast.C20_history",
    "Verif.Ast.C20_remove_twice_refuted",
    "Verif.Ast.C20_remove_full_refuted"
   ],
   "note": "Every history without duplicates that does not fill the list; duplicates and full lists are refuted."
  },
  {
   "property": "C21",
   "status": "proved",
   "theorems": [
    "Verif.Ast.C21_def_body",
    "Verif.Ast.C21_append_all",
    "Verif.Ast.C21_append_body",
    "Verif.Ast.C21_iteration",
    "Verif.Ast.C21_entry",
    "Verif.Ast.C21_iteration_refuted",
    "Verif.Ast.C21_empty_body_refuted",
    "Verif.Ast.C21_code_append_body_refuted",
    "Verif.Ast.C21_is_body"
   ],
   "note": "Every sequence of appends of codes and of non-empty bodies; the cases that go wrong (re-appended entry and for-iteration, empty body, code_append of a body) are refuted."
  },
  {
   "property": "C22",
   "status": "proved",
   "theorems": [
    "Verif.Ast.C22_append_all",
    "Verif.Ast.C22_append_list_refuted",
    "Verif.Ast.C22_params_get_refuted",
    "Verif.Ast.C22_def_params",
    "Verif.Ast.C22_def_params_rejects",
    "Verif.Ast.C22_params_arr_refuted",
    "Verif.Ser.C22_prints"
   ],
   "note": "params_append, def_params and iteration for every sequence of single parameters; params_get, def_params_arr and appending lists refuted; serialization of a list of any length is C22_prints."
  },
  {
   "property": "C23",
   "status": "proved",
   "theorems": [
    "Verif.Code.C23_make_code_fresh",
    "Verif.Code.C23_nodes_distinct",
    "Verif.Code.C23_many"
   ],
   "note": "Any number of calls and pool roll-overs."
  },
  {
   "property": "C24",
   "status": "proved",
   "theorems": [
    "Verif.Ctx.C24_lookup",
    "Verif.Ctx.C24_collision_refuted",
    "Verif.Ctx.C24_empty_name_stops"
   ],
   "note": "Every history of registrations of non-colliding names; collisions and empty names are refuted."
  },
  {
   "property": "C25",
   "status": "proved",
   "theorems": [
    "Verif.C25_specifier_spellings",
    "Verif.C25_toktype_spellings",
    "Verif.C25_specifier_keywords",
    "Verif.C25_trailing",
    "Verif.C25_token_keywords",
    "Verif.C25_specifier_iff_hash",
    "Verif.C25_toktype_iff_hash",
    "Verif.C25_no_misspelling",
    "Verif.C25_other_strings_refuted"
   ],
   "note": "All spellings; another string is recognised iff its CRC-32 collides with a keyword, and such strings exist (refutation)."
  },
  {
   "property": "C26",
   "status": "partial",
   "theorems": [
    "Verif.Lex.C26_terminates",
    "Verif.Lex.C26_safe_partial",
    "Verif.Lex.C26_open_comment",
    "Verif.Lex.C26_open_include",
    "Verif.Lex.C26_bare_define",
    "Verif.Lex.C26_last_cr"
   ],
   "note": "Termination for every content. Stays inside the content for every safe content (comments and includes closed, defines not empty, carriage returns only before newlines); false of the code otherwise: refutation theorems for each condition."
  },
  {
   "property": "C27",
   "status": "proved",
   "theorems": [
    "Verif.Lex.C27_exact",
    "Verif.Lex.C27_unique",
    "Verif.Lex.C27_words",
    "Verif.Lex.C27_tiled",
    "Verif.Lex.C27_inside",
    "Verif.Lex.C27_ordered",
    "Verif.Lex.C27_covered",
    "Verif.Lex.C27_lexemes",
    "Verif.Lex.C27_cr_swallows",
    "Verif.Lex.C27_integer_suffix",
    "Verif.Lex.C27_nonfatal_dots"
   ],
   "note": "Every content with proper line ends, failures fatal (the default build): full tiling, order, coverage, lexeme shapes; exact tokens for lines of words. Lone carriage returns and the non-fatal build are refuted."
  },
  {
   "property": "C28",
   "status": "partial",
   "theorems": [
    "Verif.Lex.C28_blanks_not_counted",
    "Verif.Lex.C28_line_before",
    "Verif.Lex.C28_placed_partial",
    "Verif.Lex.C28_exact_partial"
   ],
   "note": "The recorded position is one from which only whitespace leads to the token, exact if no whitespace precedes; that it is the first byte is false of the code (refutation theorems)."
  },
  {
   "property": "C29",
   "status": "proved",
   "theorems": [
    "Verif.Ast.C29_add_interface",
    "Verif.Ast.C29_add_interfaces",
    "Verif.Ast.C29_op_index",
    "Verif.Ast.C29_def_operator",
    "Verif.Ast.C29_def_operator_fail",
    "Verif.Ast.C29_def_template",
    "Verif.Ast.C29_def_template_null",
    "Verif.Ast.C29_def_template_refuted",
    "Verif.Ast.C29_def_using_refuted",
    "Verif.Ast.C29_def_enum_refuted",
    "Verif.Ast.C29_def_typedef_attributes_refuted",
    "Verif.Ast.C29_def_operator_cast_refuted",
    "Verif.Ast.C29_interfaces_refuted",
    "Verif.Ast.C29_def_specifiers",
    "Verif.Ast.C29_def_specifiers_rejects",
    "Verif.Ast.C29_def_specifier",
    "Verif.Ast.C29_def_attributes",
    "Verif.Ast.C29_def_constructor",
    "Verif.Ast.C29_def_destructor",
    "Verif.Ast.C29_untyped_str",
    "Verif.Ast.C29_def_execution",
    "Verif.Ast.C29_def_extern_link",
    "Verif.Ast.C29_def_friend",
    "Verif.Ast.C29_def_function",
    "Verif.Ast.C29_def_module",
    "Verif.Ast.C29_def_namespace",
    "Verif.Ast.C29_def_operator_cast",
    "Verif.Ast.C29_def_param",
    "Verif.Ast.C29_def_pragma",
    "Verif.Ast.C29_def_preprocess_cond",
    "Verif.Ast.C29_def_type",
    "Verif.Ast.C29_def_union",
    "Verif.Ast.C29_def_using_namespace",
    "Verif.Ast.C29_def_variable",
    "Verif.Ast.C29_def_include",
    "Verif.Ast.C29_def_enum",
    "Verif.Ast.C29_def_struct",
    "Verif.Ast.C29_def_class_fwd",
    "Verif.Ast.C29_def_class",
    "Verif.Ast.C29_def_define",
    "Verif.Ast.C29_def_define_no_name",
    "Verif.Ast.C29_def_typedef"
   ],
   "note": "Every def_* constructor, every argument combination: exactly when it accepts and the whole node it builds. Where the source itself deviates from the property (def_using, def_enum, def_template, def_typedef, def_operator_cast, interfaces) a refutation theorem says so."
  },
  {
   "property": "C30",
   "status": "partial",
   "theorems": [
    "Verif.Ast.C30_arity_partial",
    "Verif.Ast.C30_compound_assign_partial",
    "Verif.Ast.C30_not_partial",
    "Verif.Ast.C30_new_delete_partial",
    "Verif.Ast.C30_increment_one_partial",
    "Verif.Ast.C30_null_return_refuted",
    "Verif.Ast.C30_increment_member_refuted",
    "Verif.Ast.C30_postfix_refuted",
    "Verif.Ast.C30_unary_minus_refuted",
    "Verif.Ast.C30_special_refuted"
   ],
   "note": "Classification proved for every operator whose rule in the source is the C++ one; refuted for the rest (prefix/postfix increment, unary +/-, subscript, call, ->*, missing return type)."
  },
  {
   "property": "C31",
   "status": "proved",
   "theorems": [
    "Verif.Ast.C31_def_body_extern_refuted",
    "Verif.Ast.C31_def_body_kinds",
    "Verif.Ast.C31_def_body",
    "Verif.Ast.C31_def_body_arr",
    "Verif.Ast.C31_arr_type_refuted",
    "Verif.Ast.C31_invalid_entry_refuted",
    "Verif.Ast.C31_empty_inline_refuted"
   ],
   "note": "Every kind and every list of entries that are not themselves bodies; inlined empty bodies, invalid-code entries and the result type of two _arr functions are refuted."
  },
  {
   "property": "C32",
   "status": "partial",
   "theorems": [
    "Verif.Ast.C32_refl_partial",
    "Verif.Ast.C32_duplicate_equal_partial",
    "Verif.Ast.C32_same_type_partial",
    "Verif.Ast.C32_same_name_partial",
    "Verif.Ast.C32_typename_partial",
    "Verif.Ast.C32_params_not_reflexive_refuted",
    "Verif.Ast.C32_content_ignored_refuted",
    "Verif.Ast.C32_not_symmetric_refuted",
    "Verif.Ast.C32_function_bodies_ignored_refuted",
    "Verif.Ast.C32_different_params_equal_refuted",
    "Verif.Ser.C32_equal_prints_same_partial",
    "Verif.Ser.C32_equal_prints_partial",
    "Verif.Ser.C32_export_ignored_refuted",
    "Verif.Ser.C32_final_ignored_refuted",
    "Verif.Ser.C32_default_ignored_refuted",
    "Verif.Ser.C32_tag_ignored_refuted",
    "Verif.Ast.C32_parts_equal_partial",
    "Verif.Ast.C32_bodies_equal_partial",
    "Verif.Ast.C32_params_equal_partial",
    "Verif.Ast.C32_short_list_equal_refuted"
   ],
   "note": "Reflexive and true of duplicates for plain trees, sound for type and name, complete characterisation for typenames; two trees of any depth all of whose printed parts are compared, and that compare equal both ways, make the same text (C32_equal_prints_partial: 36 of the kinds of code, with bodies). False of the code in general: parameter lists, contents, function bodies, symmetry, `export` before a declared struct, `final`, `= default`, the tag of a type: refutation theorems. Missing from the positive part: what the code itself does not compare."
  },
  {
   "property": "C33",
   "status": "partial",
   "theorems": [
    "Verif.Ast.C33_rejects_first_partial",
    "Verif.Ast.C33_hangs_refuted",
    "Verif.Ast.C33_never_true_refuted",
    "Verif.Ast.C33_empty_refuted"
   ],
   "note": "Only rejection of a bad first entry holds; the function hangs or never returns true otherwise: refutation theorems."
  },
  {
   "property": "C34",
   "status": "proved",
   "theorems": [
    "Verif.Ser.C34_body",
    "Verif.Ser.C34_body_only",
    "Verif.Ser.C34_text_body",
    "Verif.Ser.C34_export_refuted"
   ],
   "note": "Every body kind but export bodies: exactly the texts of the entries in chain order; export bodies print their entries twice indented inside braces and are refuted separately."
  },
  {
   "property": "C35",
   "status": "proved",
   "theorems": [
    "Verif.Context.C35_init",
    "Verif.Context.C35_constants",
    "Verif.Context.C35_restart",
    "Verif.Context.C35_reset_aliases",
    "Verif.Context.C35_reset_next",
    "Verif.Context.C35_second_context",
    "Verif.Context.C35_dangling",
    "Verif.Context.C35_deinit",
    "Verif.Context.C35_deinit_make",
    "Verif.Context.C35_deinit_custom"
   ],
   "note": "Every history without reset in which the base context is freed last. reset (for every context), a second context without the enum_underlying macro, freeing the base context early and deinit with user allocators are refuted."
  },
  {
   "property": "C36",
   "status": "partial",
   "theorems": [
    "Verif.Fmt.C36_exact_partial",
    "Verif.Fmt.C36_fits_partial",
    "Verif.Fmt.C36_append_fmt_partial",
    "Verif.Fmt.C36_extra_args_partial",
    "Verif.Fmt.C36_wrong_argument",
    "Verif.Fmt.C36_short_str",
    "Verif.Fmt.C36_literal_overflow",
    "Verif.Fmt.C36_writes_past_max",
    "Verif.Fmt.C36_dropped",
    "Verif.Fmt.C36_repeat_overflow",
    "Verif.Fmt.C36_hex_unterminated",
    "Verif.Fmt.C36_padded_partial",
    "Verif.Fmt.C36_pieces_partial",
    "Verif.Fmt.C36_append_pieces_partial",
    "Verif.Fmt.C36_standard_partial",
    "Verif.Fmt.C36_flags_refuted",
    "Verif.Fmt.C36_size_refuted",
    "Verif.Fmt.C36_one_char_partial",
    "Verif.Fmt.C36_repeat_partial",
    "Verif.Select.C36_fmt_buf_partial"
   ],
   "note": "Exact output and return value for every format of literals and %S %SB %s %.*s %*s %d %u %lld %c %% whose output fits the buffer; the bound on what is written is false of the code (literals, %r, %x): refutation theorems. Props/PrintingNumbers: %d %i %u %o %x %X with any flags, width and length letters among them, the exact text, where it is the one of the C standard and where it is not. Props/PrintingRepeat: %r and %*r. Float conversions, %p and precisions of numbers are not covered."
  },
  {
   "property": "C37",
   "status": "proved",
   "theorems": [
    "Verif.Csv.C37_safe",
    "Verif.Csv.C37_unclosed",
    "Verif.Csv.C37_no_numbers",
    "Verif.Csv.C37_demo_ok",
    "Verif.Csv.C37_wider_accepted",
    "Verif.Csv.C37_empty_last_cell",
    "Verif.Csv.C37_empty_quoted",
    "Verif.Csv.C37_tab_delimiter",
    "Verif.Csv.C37_not_trimmed_at_end",
    "Verif.Csv.C37_after_quote",
    "Verif.Csv.C37_lost_cell",
    "Verif.Csv.C37_table",
    "Verif.Csv.C37_header",
    "Verif.Csv.C37_mismatch"
   ],
   "note": "Every table as described, every text for safety. Refuted outside the conditions: wider later rows are accepted, an empty last cell merges two rows, an empty quoted cell damages the text behind it, a tab as delimiter does not separate, a cell at the end of the text is not trimmed; no cell is ever converted to a number."
  },
  {
   "property": "C38",
   "status": "proved",
   "theorems": [
    "Verif.Fallback.C38_blocks_disjoint",
    "Verif.Fallback.C38_alloc_succeeds",
    "Verif.Fallback.C38_oversize_refuted",
    "Verif.Fallback.C38_resize_not_in_bucket_refuted",
    "Verif.Fallback.C38_shrink_overflow_refuted"
   ],
   "note": "Every sequence of requests that fit a bucket; oversize requests and resize are refuted."
  },
  {
   "property": "C39",
   "status": "proved",
   "theorems": [
    "Verif.CStr.C39_len",
    "Verif.CStr.C39_copy",
    "Verif.CStr.C39_copy_nulpad",
    "Verif.CStr.C39_copy_null",
    "Verif.CStr.C39_case",
    "Verif.CStr.C39_skip",
    "Verif.CStr.C39_skip_any",
    "Verif.CStr.C39_trim",
    "Verif.CStr.C39_first_occurence",
    "Verif.CStr.C39_len_capped",
    "Verif.CStr.C39_reverse",
    "Verif.CStr.C39_compare",
    "Verif.C39_characters",
    "Verif.C39_case_letters"
   ],
   "note": "Every NUL-terminated string."
  },
  {
   "property": "C40",
   "status": "proved",
   "theorems": [
    "Verif.Builder.C40_concatenates",
    "Verif.Builder.C40_append",
    "Verif.Builder.C40_print_fails",
    "Verif.Builder.C40_pad_lines",
    "Verif.Builder.C40_print_fmt_dropped"
   ],
   "note": "Every sequence of print, print_fmt and pad_lines whose operands serialize; pad_lines ignores its number and print_fmt drops texts of 131071 bytes (refutation theorems). The file system itself is not modelled: the content is what is handed to file_write."
  },
  {
   "property": "C41",
   "status": "proved",
   "theorems": [
    "Verif.Scanner.C41_block",
    "Verif.Scanner.C41_none",
    "Verif.Scanner.C41_unclosed",
    "Verif.Scanner.C41_suffix",
    "Verif.Scanner.C41_safe",
    "Verif.Scanner.C41_overrun",
    "Verif.Scanner.C41_blank_line",
    "Verif.Scanner.C41_other_macro",
    "Verif.Scanner.C41_nested"
   ],
   "note": "Every content of the described shape; overruns, blank lines behind the block, other macros with the same beginning and nested directives are refuted."
  },
  {
   "property": "C42",
   "status": "proved",
   "theorems": [
    "Verif.Ast.C42_def_comment",
    "Verif.Ast.C42_lines_of",
    "Verif.Ast.C42_slice_refuted",
    "Verif.Ast.C42_unterminated_refuted",
    "Verif.Ast.C42_trailing_newline_refuted"
   ],
   "note": "Every NUL-terminated text; views into longer strings are refuted."
  },
  {
   "property": "C43",
   "status": "proved",
   "theorems": [
    "Verif.SB.C43_visualize",
    "Verif.SB.C43_join"
   ],
   "note": "join and visualize_whitespace."
  },
  {
   "property": "C44",
   "status": "proved",
   "theorems": [
    "Verif.Ast.C44_duplicate",
    "Verif.Ast.C44_duplicate_body_refuted",
    "Verif.Ast.C44_assign_refuted"
   ],
   "note": "Every node; for bodies the copy shares entries (refutation)."
  },
  {
   "property": "C45",
   "status": "proved",
   "theorems": [
    "Verif.Ser.C45_class",
    "Verif.Ser.C45_struct",
    "Verif.Ser.C45_class_fwd",
    "Verif.Ser.C45_struct_fwd",
    "Verif.Ser.C45_union",
    "Verif.Ser.C45_union_fwd",
    "Verif.Ser.C45_enum",
    "Verif.Ser.C45_enum_fwd",
    "Verif.Ser.C45_enum_class",
    "Verif.Ser.C45_enum_class_refuted",
    "Verif.Ser.C45_enum_class_fwd",
    "Verif.Ser.C45_class_parent_refuted",
    "Verif.Ser.C45_enum_class_fwd_refuted",
    "Verif.Ser.C45_protected_refuted"
   ],
   "note": "Each kind, definition and forward declaration. Where the source deviates (protected printed as private, enum class attributes, class with several parents) a refutation theorem says so and the theorem states the real text."
  },
  {
   "property": "C46",
   "status": "proved",
   "theorems": [
    "Verif.Ser.C46_function",
    "Verif.Ser.C46_function_fwd",
    "Verif.Ser.C46_function_fwd_plain",
    "Verif.Ser.C46_operator",
    "Verif.Ser.C46_operator_fwd",
    "Verif.Ser.C46_cast",
    "Verif.Ser.C46_cast_fwd",
    "Verif.Ser.C46_constructor",
    "Verif.Ser.C46_constructor_fwd",
    "Verif.Ser.C46_destructor",
    "Verif.Ser.C46_destructor_fwd",
    "Verif.Ser.C46_virtual_destructor_refuted",
    "Verif.Ser.C46_export_refuted",
    "Verif.Ser.C46_pure_refuted",
    "Verif.Ser.C46_cast_comment_refuted"
   ],
   "note": "Each kind. Deviations (pure/virtual destructors, export order, cast comments) are refuted separately; constructors and destructors are stated for codes placed in a class."
  },
  {
   "property": "C47",
   "status": "proved",
   "theorems": [
    "Verif.Ser.C47_specifiers",
    "Verif.Ser.C47_typename",
    "Verif.Ser.C47_typename_function",
    "Verif.Ser.C47_typename_function_refuted",
    "Verif.Ser.C47_param",
    "Verif.Ser.C47_using",
    "Verif.Ser.C47_typedef",
    "Verif.Ser.C47_typedef_refuted",
    "Verif.Ser.C47_variable",
    "Verif.Ser.C47_variable_specified",
    "Verif.Ser.C47_variable_next",
    "Verif.Ser.C47_variable_code",
    "Verif.Ser.C47_params_code",
    "Verif.Ser.C47_typename_code"
   ],
   "note": "Each kind, lists and chains of any length."
  },
  {
   "property": "C48",
   "status": "proved",
   "theorems": [
    "Verif.Ser.C48_text",
    "Verif.Ser.C48_newline",
    "Verif.Ser.C48_access",
    "Verif.Ser.C48_invalid",
    "Verif.Ser.C48_directive",
    "Verif.Ser.C48_else",
    "Verif.Ser.C48_endif",
    "Verif.Ser.C48_define",
    "Verif.Ser.C48_define_params",
    "Verif.Ser.C48_define_param_list",
    "Verif.Ser.C48_namespace",
    "Verif.Ser.C48_extern",
    "Verif.Ser.C48_module",
    "Verif.Ser.C48_using_namespace",
    "Verif.Ser.C48_using_namespace_comment_refuted",
    "Verif.Ser.C48_template",
    "Verif.Ser.C48_friend"
   ],
   "note": "Each kind; parts that the source drops are refuted separately."
  },
  {
   "property": "C49",
   "status": "proved",
   "theorems": [
    "Verif.Ser.C49_def_body",
    "Verif.Ser.C49_def_class",
    "Verif.Ser.C49_def_constructor_refuted",
    "Verif.Ser.C49_kept",
    "Verif.Ser.C49_untyped_str",
    "Verif.Ser.C49_def_execution",
    "Verif.Ser.C49_def_attributes",
    "Verif.Ser.C49_def_include",
    "Verif.Ser.C49_def_pragma",
    "Verif.Ser.C49_def_preprocess_cond",
    "Verif.Ser.C49_def_module",
    "Verif.Ser.C49_def_using_namespace",
    "Verif.Ser.C49_def_namespace",
    "Verif.Ser.C49_def_extern_link",
    "Verif.Ser.C49_def_friend",
    "Verif.Ser.C49_def_param",
    "Verif.Ser.C49_def_type",
    "Verif.Ser.C49_def_function",
    "Verif.Ser.C49_def_function_fwd",
    "Verif.Ser.C49_def_struct",
    "Verif.Ser.C49_def_struct_fwd",
    "Verif.Ser.C49_def_class_fwd",
    "Verif.Ser.C49_def_union",
    "Verif.Ser.C49_def_enum",
    "Verif.Ser.C49_def_enum_class",
    "Verif.Ser.C49_def_enum_fwd",
    "Verif.Ser.C49_def_enum_class_fwd_refuted",
    "Verif.Ser.C49_def_template",
    "Verif.Ser.C49_def_define",
    "Verif.Ser.C49_def_variable",
    "Verif.Ser.C49_def_variable_specified",
    "Verif.Ser.C49_def_operator",
    "Verif.Ser.C49_def_operator_fwd",
    "Verif.Ser.C49_def_operator_cast",
    "Verif.Ser.C49_def_typedef",
    "Verif.Ser.C49_def_typedef_struct_refuted"
   ],
   "note": "Each def_* constructor; constructors outside a class body, typedef of a struct and enum class forward declarations are refuted. Names and texts must fit the cached-string and format-buffer limits stated in the hypotheses."
  },
  {
   "property": "C50",
   "status": "proved",
   "theorems": [
    "Verif.Parse.C50_empty_parent",
    "Verif.Parse.C50_untouched",
    "Verif.Parse.C50_history"
   ],
   "note": "Every parse_* function modelled (20 of them), every content and history. The exception for t_empty is real: C50_empty_parent."
  },
  {
   "property": "C51",
   "status": "proved",
   "theorems": [
    "Verif.Parse.C51_kind"
   ],
   "note": "Every parse_* function modelled, every content."
  },
  {
   "property": "C52",
   "status": "proved",
   "theorems": [
    "Verif.Parse.C52_apart",
    "Verif.Parse.C52_later"
   ],
   "note": "Every parse_* function modelled, every content."
  },
  {
   "property": "C53",
   "status": "proved",
   "theorems": [
    "Verif.Parse.C53_init",
    "Verif.Parse.C53_ready"
   ],
   "note": "Every parse_* function modelled, every content."
  },
  {
   "property": "C54",
   "status": "proved",
   "theorems": [
    "Verif.Parse.C54_const_function",
    "Verif.Parse.C54_const_case",
    "Verif.Parse.C54_operator_case",
    "Verif.Parse.C54_terminates",
    "Verif.Parse.C54_terminates_const"
   ],
   "note": "Every parse_* function modelled and every content without the keyword operator (and, for parse_function and parse_operator, without const); with them the code loops: C54_const_function, C54_operator_case."
  },
  {
   "property": "C55",
   "status": "proved",
   "theorems": [
    "Verif.Strip.C55_words",
    "Verif.Strip.C55_again",
    "Verif.Strip.C55_open_comment",
    "Verif.Strip.C55_safe",
    "Verif.Strip.C55_terminates",
    "Verif.Strip.C55_short_comment",
    "Verif.Strip.C55_escaped_backslash",
    "Verif.Strip.C55_backslash_lost",
    "Verif.Strip.C55_two_spaces",
    "Verif.Strip.C55_leading"
   ],
   "note": "Every text of words and gaps as described; for safety every text without block comments. Refuted: an unclosed block comment runs past the end, /*/ counts as closed, an escaped backslash before a closing quote hides it, a lone backslash is dropped, a tab followed by one space gives two spaces."
  },
  {
   "property": "C56",
   "status": "proved",
   "theorems": [
    "Verif.Parse.C56_variable",
    "Verif.Parse.C56_function",
    "Verif.Parse.C56_using",
    "Verif.Parse.C56_typedef",
    "Verif.Parse.C56_enum",
    "Verif.Parse.C56_class",
    "Verif.Parse.C56_struct",
    "Verif.Parse.C56_union",
    "Verif.Parse.C56_spelled_init",
    "Verif.Parse.C56_spelled",
    "Verif.Parse.C56_template",
    "Verif.Parse.C56_global_body",
    "Verif.Parse.C56_namespace",
    "Verif.Parse.C56_extern",
    "Verif.Parse.C56_arrow_refuted",
    "Verif.Parse.C56_less_refuted",
    "Verif.Parse.C56_bound_refuted",
    "Verif.Parse.C56_operator_refuted",
    "Verif.Parse.C56_brace_refuted",
    "Verif.Parse.C56_delete_refuted",
    "Verif.Parse.C56_default_refuted",
    "Verif.Parse.C56_struct_refuted",
    "Verif.Parse.C56_unnamed_refuted",
    "Verif.Parse.C56_enum_refuted",
    "Verif.Parse.C56_prefix_refuted",
    "Verif.Parse.C56_first_refuted",
    "Verif.Parse.C56_inplace_refuted",
    "Verif.Parse.C56_unnamed_enum_refuted",
    "Verif.Parse.C56_enum_class_refuted",
    "Verif.Parse.C56_enumerator_refuted",
    "Verif.Parse.C56_alias_refuted",
    "Verif.Parse.C56_parent_refuted",
    "Verif.Parse.C56_base_access_refuted",
    "Verif.Parse.C56_union_refuted",
    "Verif.Parse.C56_linkage_refuted",
    "Verif.Parse.C56_destructor_refuted",
    "Verif.Parse.C56_explicit_refuted",
    "Verif.Parse.C56_function_refuted",
    "Verif.Parse.C56_dots_refuted",
    "Verif.Parse.C56_function_pointer_refuted"
   ],
   "note": "The specification (Props/ReadSpec, ReadFnSpec, ReadBodySpec) says which token sequences are meant and how each is printed; what the parser gets wrong near by is refuted (\u2026_refuted). Bases of structs, templates (classes, structs, unions, functions, variables, aliases), preprocessor directives and static_assert are covered. Not covered: constructors, operators, template arguments of types (A<int>), protected bases and bases of classes (which cannot be printed)."
  },
  {
   "property": "C57",
   "status": "proved",
   "theorems": [
    "Verif.Stream.C57_history",
    "Verif.Stream.C57_open",
    "Verif.Stream.C57_open_clone",
    "Verif.Stream.C57_new",
    "Verif.Stream.C57_readonly",
    "Verif.Stream.C57_fixed",
    "Verif.Stream.C57_extend",
    "Verif.Stream.C57_write_new",
    "Verif.Stream.C57_write_opened",
    "Verif.Stream.C57_lost_refuted",
    "Verif.Stream.C57_read_refuted",
    "Verif.Stream.C57_write_refuted"
   ],
   "note": "Every history inside the stream, every mode. Refuted: the second write that extends a growing stream loses everything the stream held (the array is grown with a count of 0), reads over the end and writes behind the end are not checked."
  },
  {
   "property": "C58",
   "status": "proved",
   "theorems": [
    "Verif.CsvWrite.C58_text",
    "Verif.CsvWrite.C58_round_trip",
    "Verif.CsvWrite.C58_round_trip_names",
    "Verif.CsvWrite.C58_header_only_refuted",
    "Verif.CsvWrite.C58_names_refuted",
    "Verif.CsvWrite.C58_short_column_refuted",
    "Verif.CsvWrite.C58_string_refuted"
   ],
   "note": "Every table of texts shorter than 131070 bytes; for reading back, cells as C37 wants them (no empty quoted cell, last cell of a row not empty). Refuted: csv_write_string keeps only the last byte of the text (for every table), a table without rows loses its names, a short column is read behind its end, names are dropped if the first column has none. What the operating system does with the pieces is not modelled."
  },
  {
   "property": "C59",
   "status": "proved",
   "theorems": [
    "Verif.Round.C59_variable",
    "Verif.Round.C59_function",
    "Verif.Round.C59_using",
    "Verif.Round.C59_typedef",
    "Verif.Round.C59_enum",
    "Verif.Round.C59_file",
    "Verif.Round.C59_class",
    "Verif.Round.C59_struct",
    "Verif.Round.C59_union",
    "Verif.Round.C59_namespace",
    "Verif.Round.C59_extern",
    "Verif.Round.C59_again",
    "Verif.Round.C59_added",
    "Verif.Round.C59_flat",
    "Verif.Round.C59_rounds",
    "Verif.Round.C59_empty_bound",
    "Verif.Round.C59_struct_grows"
   ],
   "note": "Declarations of the form of C56 without templates, operators, constructors, parents of classes and inline comments behind a semicolon; expressions and function bodies are any tokens in any layout. Refuted: a printed array without a bound cannot be parsed again; a struct grows by an empty line each round."
  },
  {
   "property": "C60",
   "status": "proved",
   "theorems": [
    "Verif.Adt.C60_decimal",
    "Verif.Adt.C60_hexadecimal",
    "Verif.Adt.C60_real",
    "Verif.Adt.C60_last_point",
    "Verif.Adt.C60_point",
    "Verif.Adt.C60_decimal_round_trip",
    "Verif.Adt.C60_hexadecimal_round_trip",
    "Verif.Adt.C60_exponent_round_trip",
    "Verif.Adt.C60_point_round_trip",
    "Verif.Adt.C60_strict",
    "Verif.Adt.C60_strict_no_hexadecimal",
    "Verif.Adt.C60_capital_x",
    "Verif.Adt.C60_negative_hexadecimal",
    "Verif.Adt.C60_integer_exponent",
    "Verif.Adt.C60_word",
    "Verif.Adt.C60_digits_and_letters",
    "Verif.Adt.C60_empty",
    "Verif.Adt.C60_long_exponent",
    "Verif.Adt.C60_lowest",
    "Verif.Adt.C60_long",
    "Verif.Adt.C60_exponent_nine",
    "Verif.Adt.C60_zeros_grow"
   ],
   "note": "Every numeral of the forms described; conversion to and arithmetic on 64-bit floats are parameters (the theorems say which text is converted and how often it is scaled). Refuted: 0X, a minus in front of 0x, an exponent without a point, words of the letters a-f, exponents over 7, six exponent digits, 48 characters, -2^63; the strict reader refuses every hexadecimal number; zeros behind the point of a number with an exponent grow by one each round."
  },
  {
   "property": "C61",
   "status": "proved",
   "theorems": [
    "Verif.Adt.C61_edit",
    "Verif.Adt.C61_history",
    "Verif.Adt.C61_make",
    "Verif.Adt.C61_demo",
    "Verif.Adt.C61_demo_query",
    "Verif.Adt.C61_find_array_refuted",
    "Verif.Adt.C61_unnamed_refuted",
    "Verif.Adt.C61_pointer_refuted",
    "Verif.Adt.C61_alloc_at_refuted",
    "Verif.Adt.C61_move_refuted",
    "Verif.Adt.C61_moved_can_go",
    "Verif.Adt.C61_clib_refuted",
    "Verif.Adt.C61_out_of_memory_refuted",
    "Verif.Adt.C61_append_leaf",
    "Verif.Adt.C61_word_index_refuted",
    "Verif.Adt.C61_find",
    "Verif.Adt.C61_query",
    "Verif.Adt.C61_query_place",
    "Verif.Adt.C61_destroy",
    "Verif.Adt.C61_remove_refuted",
    "Verif.Adt.C61_remove_present"
   ],
   "note": "Every tree, place and history for append, set, find, query and destroy. Refuted: adt_remove_node and adt_swap_nodes are undefined for every node made by the append functions, which never set the parent (C61_remove_refuted); adt_move_node leaves the old node behind; adt_alloc_at in the middle doubles a sibling; arrays are not searched; an unnamed child of an object makes a search undefined; pointers to nodes dangle when their array grows; in the C library the first append is undefined; an append without memory asserts; an index that is no number gives element 0."
  },
  {
   "property": "C62",
   "status": "proved",
   "theorems": [
    "Verif.Files.C62_history",
    "Verif.Files.C62_builder",
    "Verif.Files.C62_builder_any",
    "Verif.Files.C62_builder_stops",
    "Verif.Files.C62_builder_refuted",
    "Verif.Files.C62_builder_short_refuted",
    "Verif.Files.C62_builder_not_atomic_refuted",
    "Verif.Files.C62_translate",
    "Verif.Files.C62_open_existing",
    "Verif.Files.C62_open_creates",
    "Verif.Files.C62_open_fails",
    "Verif.Files.C62_open_bad_mode",
    "Verif.Files.C62_close",
    "Verif.Files.C62_close_twice_refuted",
    "Verif.Files.C62_write_any",
    "Verif.Files.C62_stream_write",
    "Verif.Files.C62_stream_history",
    "Verif.Files.C62_standard",
    "Verif.Files.C62_short_write_refuted",
    "Verif.Files.C62_failed_write_refuted",
    "Verif.Files.C62_read_over_end_refuted",
    "Verif.Files.C62_append_tell_refuted",
    "Verif.Files.C62_write_at_moves_refuted",
    "Verif.Files.C62_seek_refuted",
    "Verif.Files.C62_read_contents",
    "Verif.Files.C62_read_contents_refuted",
    "Verif.Files.C62_short_read_refuted",
    "Verif.Files.C62_parse_file",
    "Verif.Files.C62_parse_file_refuted",
    "Verif.Files.C62_scan_file",
    "Verif.Files.C62_scan_file_stops",
    "Verif.Files.C62_two_columns",
    "Verif.Files.C62_one_column",
    "Verif.Files.C62_two_columns_refuted"
   ],
   "note": "POSIX functions; the operating system is a model of POSIX open, lseek, pread, pwrite, write, close with refusals, short transfers and kill points. Refuted: a short write or read is reported as success; a failed write and a read over the end move the position; file_tell of a file opened for appending; file_write_at moves the position only where it equals the offset; a negative seek; closing twice; file_read_contents and parse_file of an empty or missing file use values never stored; the builder does not replace a file in one step, and has no buffer if a failed open is not fatal."
  },
  {
   "property": "C63",
   "status": "proved",
   "theorems": [
    "Verif.Tools.C63_clang_format",
    "Verif.Tools.C63_refactor",
    "Verif.Tools.C63_no_style_refuted",
    "Verif.Tools.C63_unquoted_refuted",
    "Verif.Tools.C63_told_apart",
    "Verif.Tools.C63_told_apart_refactor",
    "Verif.Tools.C63_through_tools",
    "Verif.Tools.C63_no_tools",
    "Verif.Tools.C63_edited",
    "Verif.Tools.C63_nothing_left"
   ],
   "note": "The other programs are any function from command and disk to disk; paths are shorter than 131000 bytes and without NUL. Refuted: clang_format_file with a null style goes through a builder that was never stored, although it asks for null; nothing is quoted, so names with spaces give the same command for different requests."
  },
  {
   "property": "C64",
   "status": "proved",
   "theorems": [
    "Verif.Ast.C64_filtered",
    "Verif.Ast.C64_untouched",
    "Verif.Ast.C64_nested_else_refuted",
    "Verif.Ast.C64_elif_refuted",
    "Verif.Ast.C64_other_body_refuted",
    "Verif.Ast.C64_unclosed_refuted"
   ],
   "note": "Every body and nesting; the part behind the #else of a left-out block must not contain conditional directives, the block no #elif of its own. Refuted: a block inside the part behind #else (its #endif is taken for the outer one), #elif, an unclosed block, and the loop over inlines.hpp, which passes the bodies of another loop."
  },
  {
   "property": "C65",
   "status": "proved",
   "theorems": [
    "Verif.EnumTables.C65_generate",
    "Verif.EnumTables.C65_generate_codes",
    "Verif.EnumTables.C65_operators_text",
    "Verif.EnumTables.C65_specifiers_text",
    "Verif.EnumTables.C65_codes_text",
    "Verif.EnumTables.C65_one_column_refuted",
    "Verif.EnumTables.C65_name_refuted",
    "Verif.EnumTables.C65_backslash_refuted"
   ],
   "note": "From the bytes of the file to the printed text, as one theorem for the operators and specifiers (C65_generate) and one for the kinds of codes (C65_generate_codes), whose two functions are read as a body; C65_*_text write the texts out; for C++ (not use_c_definition). The texts given to the parser are at most 131000 bytes. Refuted: a file with one column is undefined; names that are no identifiers are joined, get values or stop the program; a backslash in the second column stops it."
  },
  {
   "property": "C66",
   "status": "proved",
   "theorems": [
    "Verif.Ser.C66_unique_name",
    "Verif.Ser.C66_distinct",
    "Verif.Ser.C66_identifier_refuted",
    "Verif.Ser.C66_distinct_refuted"
   ],
   "note": "C66_unique_name gives the name, C66_distinct that the name tells plain parameters apart. Refuted: f( ptr, int ) and f( int* ) get the same name; a reference leaves a name that is no identifier. Types, names and prefix together at most 131069 bytes."
  },
  {
   "property": "C67",
   "status": "proved",
   "theorems": [
    "Verif.Select.C67_selection_macro"
   ],
   "note": "Names of at most 100000 bytes and fewer than 2^31-1 slots. The builder that stays from call to call holds anything before."
  },
  {
   "property": "C68",
   "status": "proved",
   "theorems": [
    "Verif.Ast.C68_swapped",
    "Verif.Ast.C68_adjacent_refuted",
    "Verif.Ast.C68_at_end_refuted",
    "Verif.Ast.C68_unclosed_refuted",
    "Verif.Ast.C68_prefix_refuted"
   ],
   "note": "For bodies in which every region is closed and has an entry behind it. Adjacent regions, a region at the end, one that is not closed and one whose name begins with the name are refuted."
  },
  {
   "property": "C69",
   "status": "proved",
   "theorems": [
    "Verif.EnumToC.C69_underlying",
    "Verif.EnumToC.C69_enum_text",
    "Verif.EnumToC.C69_class_refuted",
    "Verif.EnumToC.C69_plain",
    "Verif.EnumToC.C69_class_text_refuted",
    "Verif.EnumToC.C69_stale_comment_refuted"
   ],
   "note": "For enums with an underlying type; without one the text that is parsed and cases. enum class (the macro is not printed) and a comment left behind in the token array are refuted."
  }
 ]
}