{"claims": [
{"property": "C01", "status": "proved", "theorems": ["SPVM.NumList.c01_new_history", "SPVM.NumList.c01_new_len_history", "SPVM.NumList.c01_new_len_negative", "SPVM.NumList.c01_replace_overflow_violated"], "note": "All histories within resources (lengths below 2^30 and allocation limit, int arguments whose sum does not overflow); c01_replace_overflow_violated shows the overflow precondition is needed."},
{"property": "C02", "status": "proved", "theorems": ["SPVM.NumList.c02_throw_changes_nothing", "SPVM.NumList.c02_bad_index_throws"], "note": "For every reachable list, any allocation limit."},
{"property": "C03", "status": "partial", "theorems": ["SPVM.ObjList.c03_new_history_partial", "SPVM.ObjList.c03_new_len_history_partial", "SPVM.ObjList.c03_insert_undef_violated", "SPVM.ObjList.c03_resize_stale_violated", "SPVM.ObjList.c03_reserve_throws_violated"], "note": "All histories inside the stated domain; the code departs from a sequence for insert(undef), resize after tail removal, reserve after shift (witnesses)."},
{"property": "C04", "status": "partial", "theorems": ["SPVM.ObjList.c04_throw_changes_nothing_partial", "SPVM.ObjList.c04_set_throw_changes_nothing", "SPVM.ObjList.c04_push_type_violated"], "note": "Every throw with storable elements leaves the list unchanged; false for push of an element of a wrong type (witness)."},
{"property": "C05", "status": "partial", "theorems": ["SPVM.StrBuf.c05_new_history_partial", "SPVM.StrBuf.c05_new_len_history_partial", "SPVM.StrBuf.c05_throw_changes_nothing_partial", "SPVM.StrBuf.c05_set_length_stale_violated", "SPVM.StrBuf.c05_set_undef_violated"], "note": "All histories except growing set_length after a shortening replace and set(undef), where the code departs (witnesses)."},
{"property": "C06", "status": "proved", "theorems": ["SPVM.StrBuf.c06_cmp_eq", "SPVM.StrBuf.c06_clone"], "note": "cmp/eq of all reachable buffers against the lexicographic order; clone."},
{"property": "C07", "status": "proved", "theorems": ["SPVM.Hash.c07_history", "SPVM.Hash.c07_new_pairs_history", "SPVM.Hash.c07_throw_changes_nothing"], "note": "All histories of set/get/exists/delete/weaken/unweaken/isweak/keys_length/has_keys/keys/values/to_array, any hash function, memory exhaustion included (limit < 2^30 elements per array). Typed get/set wrappers and get_or_default are not modelled."},
{"property": "C08", "status": "proved", "theorems": ["SPVM.Hash.c08_enumeration"], "note": "to_array with sort=0; sorted variants not modelled."},
{"property": "C09", "status": "partial", "theorems": ["SPVM.Hash.c09_weak_stays_partial", "SPVM.Hash.c09_rehash_drops_weak_violated", "SPVM.Hash.c09_rehash_drops_all_weak", "SPVM.Hash.c09_set_is_strong"], "note": "False of the code in general: a rehash drops weak flags (counterexample and its extent proved). Proved for histories without rehash."},
{"property": "C10", "status": "proved", "theorems": ["SPVM.MSort.c10_stable_sort", "SPVM.MSort.c10_bad_arguments_throw", "SPVM.MSort.c10_sort_asc", "SPVM.MSort.c10_sort_desc", "SPVM.MSort.c10_sort_string_asc", "SPVM.MSort.c10_sort_string_desc", "SPVM.MSort.c10_fn_sort_asc", "SPVM.MSort.c10_index_overflow_violated"], "note": "For arrays of at most 2^30 elements; beyond that the midpoint addition overflows (c10_index_overflow_violated)."},
{"property": "C11", "status": "proved", "theorems": ["SPVM.MSort.c11_any_comparator", "SPVM.MSort.c11_no_memory"], "note": "Arrays of at most 2^30 elements; comparator may be stateful and may throw."},
{"property": "C12", "status": "partial", "theorems": ["SPVM.MSort.c12_fn_sort_violated", "SPVM.MSort.c12_fn_sort_partial"], "note": "The code sorts the argument and returns the unsorted copy; negation proved with a witness, actual behaviour proved in general."},
{"property": "C13", "status": "partial", "theorems": ["SPVM.ArrayOps.c13_shuffle_object", "SPVM.ArrayOps.c13_undef_throws", "SPVM.ArrayOps.c13_shuffle_numeric_partial", "SPVM.ArrayOps.c13_every_permutation", "SPVM.ArrayOps.c13_self_copy_violated"], "note": "Proved for object arrays. Numeric arrays: at most 2^31-1 bytes and exact self memcpy assumed harmless (undefined by the C standard, witness proved)."},
{"property": "C14", "status": "partial", "theorems": ["SPVM.FnStr.c14_join", "SPVM.FnStr.c14_join_throws", "SPVM.FnStr.c14_split", "SPVM.FnStr.c14_split_default", "SPVM.FnStr.c14_split_limit", "SPVM.FnStr.c14_join_split", "SPVM.FnStr.c14_join_split_default_violated", "SPVM.FnStr.c14_parts_clean", "SPVM.FnStr.c14_split_unique", "SPVM.FnStr.c14_split_throws"], "note": "Full for every limit except 0. With the default limit 0 the code drops trailing empty parts, so the round trip fails (violated theorem); what is returned then is characterised by c14_split_default. Room for the result is assumed."},
{"property": "C15", "status": "proved", "theorems": ["SPVM.FnStr.c15_trim", "SPVM.FnStr.c15_trim_idempotent", "SPVM.FnStr.c15_trim_undef"], "note": "For every string that can exist and be copied."},
{"property": "C16", "status": "proved", "theorems": ["SPVM.FnStr.c16_index", "SPVM.FnStr.c16_index_whole", "SPVM.FnStr.c16_rindex", "SPVM.FnStr.c16_rindex_empty", "SPVM.FnStr.c16_contains", "SPVM.FnStr.c16_throws"], "note": "All strings and offsets; the inclusive end of the code is captured by Spec.FnStr.searchEnd."},
{"property": "C17", "status": "partial", "theorems": ["SPVM.FnStr.c17_substr", "SPVM.FnStr.c17_substr_throws_partial", "SPVM.FnStr.c17_substr_overflow_violated", "SPVM.FnStr.c17_substr_replace"], "note": "offset+length is computed in 32 bit signed arithmetic: the range check overflows for huge arguments (violated theorem), every non-overflowing invalid range throws."},
{"property": "C18", "status": "proved", "theorems": ["SPVM.FnStr.c18_case", "SPVM.FnStr.c18_idempotent", "SPVM.FnStr.c18_throws"], "note": ""},
{"property": "C19", "status": "proved", "theorems": ["SPVM.Utf8.c19_chr", "SPVM.Utf8.c19_ord_chr", "SPVM.Utf8.c19_ord"], "note": "All ints / all scalar values / all strings."},
{"property": "C20", "status": "proved", "theorems": ["SPVM.Utf8.c20_decode", "SPVM.Utf8.c20_decode_throws", "SPVM.Utf8.c20_look", "SPVM.Utf8.c20_encode_injective", "SPVM.Utf8.c20_to_code_points", "SPVM.Utf8.c20_decoder_in_bounds"], "note": "Decoder exact for every string and offset; room for the result list is assumed in to_code_points."},
{"property": "C21", "status": "partial", "theorems": ["SPVM.FnStr.c21_hex_partial", "SPVM.FnStr.c21_hex_throws", "SPVM.FnStr.c21_hex_overflow_violated"], "note": "Values from 0x80000000 are computed by signed overflow (undefined in the C generated code); proved for all others, and every non-numeral throws."},
{"property": "C22", "status": "partial", "theorems": ["SPVM.FnStr.c22_powi", "SPVM.FnStr.c22_powl_partial", "SPVM.FnStr.c22_powl_counter_violated", "SPVM.FnStr.c22_pow_throws", "SPVM.FnStr.c22_powi_overflow"], "note": "powl counts with an int: exponents from 2^31 overflow the counter (violated theorem)."},
{"property": "C23", "status": "partial", "theorems": ["SPVM.c23_memmove_partial", "SPVM.c23_memcpy_partial", "SPVM.c23_undef_throws", "SPVM.c23_memmove_overflow_violated"], "note": "The property fails when offset+length overflows int (c23_memmove_overflow_violated); proved for all other arguments."},
{"property": "C24", "status": "partial", "theorems": ["SPVM.FnMem.c24_memmove_partial", "SPVM.FnMem.c24_memcpy_partial", "SPVM.FnMem.c24_memcmp_partial", "SPVM.FnMem.c24_undef_throws", "SPVM.FnMem.c24_read_only_never_written", "SPVM.FnMem.c24_negative_offset_violated", "SPVM.FnMem.c24_overflow_violated"], "note": "Safe and exact for non-negative offsets without int overflow; negative offsets reach memory outside the object (witness for all strings)."},
{"property": "C25", "status": "partial", "theorems": ["SPVM.ArrayOps.c25_copy_partial", "SPVM.ArrayOps.c25_copy_overflow_violated", "SPVM.ArrayOps.c25_equals", "SPVM.ArrayOps.c25_equals_eq", "SPVM.ArrayOps.c25_equals_nan_violated", "SPVM.ArrayOps.c25_merge", "SPVM.ArrayOps.c25_merge_undef", "SPVM.ArrayOps.c25_memset_partial", "SPVM.ArrayOps.c25_memset_throws", "SPVM.ArrayOps.c25_memset_past_end_violated", "SPVM.ArrayOps.c25_reverse", "SPVM.ArrayOps.c25_reverse_numeric_partial", "SPVM.ArrayOps.c25_reverse_involution", "SPVM.ArrayOps.c25_slice_object_partial", "SPVM.ArrayOps.c25_slice_numeric_partial"], "note": "False for int-overflowing ranges, memset behind the end and NaN elements (witnesses proved); proved otherwise."},
{"property": "C26", "status": "partial", "theorems": ["SPVM.ArrayOps.c26_repeat_violated", "SPVM.ArrayOps.c26_repeat_partial", "SPVM.ArrayOps.c26_repeat_throws", "SPVM.ArrayOps.c26_repeat_string"], "note": "False of the code: loop bounds swapped in Array->repeat (witness proved). repeat_string proved."},
{"property": "C27", "status": "partial", "theorems": ["SPVM.Endian.c27_change", "SPVM.Endian.c27_involution", "SPVM.Endian.c27_bytes", "SPVM.Endian.c27_throws", "SPVM.Endian.c27_system", "SPVM.Endian.c27_overflow_violated"], "note": "Every conversion reverses exactly the bytes asked for, twice gives the input back, other bytes stay, and bad ranges throw. Missing: for an offset plus size beyond the int range the range check itself overflows (c27_overflow_violated)."},
{"property": "C28", "status": "partial", "theorems": ["SPVM.Packer.c28_roundtrip", "SPVM.Packer.c28_exact", "SPVM.Packer.c28_unpack", "SPVM.Packer.c28_layout_partial", "SPVM.Packer.c28_type_throws", "SPVM.Packer.c28_too_few_throws", "SPVM.Packer.c28_bad_letter_throws", "SPVM.Packer.c28_a_without_count_throws", "SPVM.Packer.c28_undef_throws", "SPVM.Packer.c28_order_violated", "SPVM.Packer.c28_count_overflow_violated", "SPVM.Packer.c28_hex_violated", "SPVM.Packer.c28_hex_star_violated", "SPVM.Packer.c28_hex_low_violated"], "note": "Round trip in both directions for every template of string and numeric items whose only * is last, up to memory. Missing because the code is wrong there: byte order of arrays (only the first element is swapped), hexadecimal items, counts whose size overflows int."},
{"property": "C29", "status": "proved", "theorems": ["SPVM.VM.c29_divide", "SPVM.VM.c29_modulo", "SPVM.VM.c29_int", "SPVM.VM.c29_long", "SPVM.VM.c29_unsigned"], "note": "int/long division truncates, remainder takes the divisor's sign, zero divisor throws; INT_MIN/-1 covered."},
{"property": "C30", "status": "proved", "theorems": ["SPVM.VM.c30_get", "SPVM.VM.c30_set", "SPVM.VM.c30_set_checked"], "note": "Element read/write and checked object element store."},
{"property": "C31", "status": "proved", "theorems": ["SPVM.VM.c31_operators", "SPVM.VM.c31_total_order", "SPVM.VM.c31_numeric_cmp"], "note": "All seven string comparison operators incl. undef against the lexicographic order of unsigned bytes."},
{"property": "C32", "status": "partial", "theorems": ["SPVM.Heap.c32_counts_exact_partial", "SPVM.Heap.c32_counts_exact_no_destructors", "SPVM.Heap.c32_alive_iff_referenced", "SPVM.Heap.c32_terminates_no_destructors", "SPVM.Heap.c32_clear_effect", "SPVM.Heap.c32_move_effect", "SPVM.Heap.c32_new_effect", "SPVM.Heap.c32_getField_effect", "SPVM.Heap.c32_setField_effect", "SPVM.Heap.c32_last_reference_frees", "SPVM.Heap.c32_not_last_keeps", "SPVM.Heap.c32_destructor_leak_violated", "SPVM.Heap.c32_destructor_use_after_free_violated"], "note": "Full for classes without DESTROY. With destructors: proved for all programs in which no destructor stores into an object whose fields are being cleared (NoRefill); the two violation theorems show that the real code leaks, or writes to freed memory, without that condition. One thread."},
{"property": "C33", "status": "partial", "theorems": ["SPVM.Heap.c33_weak_refers_to_strongly_held", "SPVM.Heap.c33_weaken_effect", "SPVM.Heap.c33_unweaken_effect", "SPVM.Heap.c33_weaken_unweaken_roundtrip", "SPVM.Heap.c33_weaken_last_destroys", "SPVM.Heap.c33_weak_becomes_undef", "SPVM.Heap.c32_destructor_use_after_free_violated"], "note": "Single thread; destructors as in C32 (effects of destruction stated for classes without DESTROY)."},
{"property": "C34", "status": "partial", "theorems": ["SPVM.Heap.c34_scope_partial", "SPVM.Heap.c34_scope_no_destructors", "SPVM.Heap.c34_scope_frees", "SPVM.Heap.c34_push"], "note": "With destructors under NoRefill (see C32); without destructors unconditional."},
{"property": "C35", "status": "partial", "theorems": ["SPVM.Types.c35_assignable_iff", "SPVM.Types.c35_converts_iff", "SPVM.Types.c35_class_assignable", "SPVM.Types.c35_reflexive", "SPVM.Types.c35_transitive_partial", "SPVM.Types.c35_interface_inherited", "SPVM.Types.c35_accepted_acyclic", "SPVM.Types.c35_interface_transitivity_violated", "SPVM.Types.c35_cycle_check_hangs_violated", "SPVM.Types.c35_interface_recursion_violated", "SPVM.TypeCache.key_inj", "SPVM.TypeCache.c35_cache_transparent", "SPVM.TypeCache.c35_cache_answers"], "note": "Reflexivity, agreement with an independent specification of assignability, and the cache (all histories and interleavings) are proved without restriction; transitivity holds for every destination that is not an interface and is refuted for interfaces (witness accepted by the compiler's checks). The interface test and the cycle check do not terminate on two proved witnesses."},
{"property": "C36", "status": "proved", "theorems": ["SPVM.Types.c36_binary_search", "SPVM.Types.c36_call_resolves", "SPVM.Types.c36_inherits", "SPVM.Types.c36_super_methods_callable"], "note": "Run-time lookup (binary search in each class, then the parent) against an inductive specification of resolution, for every accepted hierarchy; classes that pass the compiler's super class check can answer every instance method of every ancestor."},
{"property": "C37", "status": "proved", "theorems": ["SPVM.Call.c37_calls_end", "SPVM.Call.c37_depth_restored", "SPVM.Call.c37_too_deep", "SPVM.Call.c37_runs", "SPVM.Call.c37_init_once", "SPVM.Call.c37_init_order", "SPVM.Call.c37_default_classes_first", "SPVM.Call.c37_use_cycle_violated", "SPVM.Call.c37_args_checked", "SPVM.Call.c37_defaults", "SPVM.Call.c37_bad_args"], "note": "For every table of methods whose code is an arbitrary finite tree of own steps and calls (any exceptions, any catching): termination by the depth limit, depth restored, INIT at most once in every history, INIT order by induction over the call depth. The order part excludes use cycles and explicit calls of INIT by user code; the cycle witness shows why."},
{"property": "C38", "status": "partial", "theorems": ["SPVM.CHash.c38_history_wrap", "SPVM.CHash.c38_history_partial", "SPVM.CHash.c38_hash_overflow_violated"], "note": "Full map refinement with two's complement hash arithmetic; by the C standard the hash function overflows for ordinary keys (violation proved), and the refinement holds for keys on which it does not."},
{"property": "C39", "status": "proved", "theorems": ["SPVM.CList.c39_history", "SPVM.CList.c39_out_of_contract", "SPVM.CList.c39_capacity_overflow_violated"], "note": "Histories of at most 2^30 calls; growing a full list of 2^30 pointers overflows."},
{"property": "C40", "status": "proved", "theorems": ["SPVM.CStrBuf.c40_history", "SPVM.CStrBuf.c40_contains"], "note": "Contents below 2^30 bytes (the capacity is an int that doubles)."},
{"property": "C41", "status": "proved", "theorems": ["SPVM.Alloc.c41_calls_are_safe", "SPVM.Alloc.c41_count", "SPVM.Alloc.c41_blocks_distinct", "SPVM.Alloc.c41_free_releases_all", "SPVM.Alloc.c41_empty_permanent_violated"], "note": "Under the client contract; a permanent allocation of size 0 breaks the accounting (witness proved)."},
{"property": "C42", "status": "proved", "theorems": ["SPVM.Intern.c42_interning"], "note": "Two's complement hash arithmetic (see C38)."},
{"property": "C43", "status": "partial", "theorems": ["SPVM.NumStr.c43_to_string", "SPVM.NumStr.c43_roundtrip", "SPVM.NumStr.c43_string_to_number", "SPVM.NumStr.c43_no_number", "SPVM.NumStr.c43_to_int_with_base", "SPVM.NumStr.c43_to_long_with_base", "SPVM.NumStr.c43_to_int_throws", "SPVM.NumStr.c43_to_int_roundtrip", "SPVM.NumStr.c43_not_a_numeral_violated"], "note": "Round trips, saturation and the exact set of accepted strings are proved for all integers and strings. Partial because Fn->to_int also accepts the empty string and ignores everything after a NUL, which is proved as a violation. Conversions from and to float and double are not modelled."},
{"property": "C44", "status": "partial", "theorems": ["SPVM.Format.c44_sprintf", "SPVM.Format.c44_literal", "SPVM.Format.c44_width", "SPVM.Format.c44_dangling", "SPVM.Format.c44_bad_specifier", "SPVM.Format.c44_zero_pad_violated", "SPVM.Format.c44_width_violated", "SPVM.Format.c44_empty_string_violated", "SPVM.Format.c44_long_double_violated", "SPVM.Format.c44_width_overflow_violated"], "note": "For every list of literal texts and fields (flags, width, precision, conversions c d f g s u x X ld lu lx lX) and every argument list, sprintf on the written format gives the specified text or throws. Missing: the width of a string cut to its precision is lost, the empty string throws, texts of doubles longer than 21 bytes plus precision are read past their buffer, and widths near 2^31 overflow; each is proved as a violation. %p and the texts of doubles are parameters."},
{"property": "C45", "status": "proved", "theorems": ["SPVM.ArrayOps.c45_crand", "SPVM.ArrayOps.c45_draws", "SPVM.ArrayOps.c45_seed_injective"], "note": "Fn->rand (double) not modelled"},
{"property": "C46", "status": "partial", "theorems": ["SPVM.Utf8.c46_tr_partial", "SPVM.Utf8.c46_tr_throws", "SPVM.Utf8.c46_tr_in_range", "SPVM.Utf8.c46_tr_beyond_violated", "SPVM.Utf8.c46_pattern_long_violated", "SPVM.Utf8.c46_pattern_throws", "SPVM.Utf8.c46_throws"], "note": "Exact for documented patterns; replacements are not confined to the replacement range and patterns of 4 or more characters are accepted (violated theorems)."},
{"property": "C47", "status": "partial", "theorems": ["SPVM.VM.c47_shifts", "SPVM.VM.c47_left_shift_negative_violated"], "note": "Left shift of a negative value and results outside the type are undefined behaviour in the C code."},
{"property": "C48", "status": "partial", "theorems": ["SPVM.VM.c48_mulnum_fields", "SPVM.VM.c48_mulnum_size_overflow_violated"], "note": "Field cells independent for arrays whose size computation does not overflow; the native constructor computes the size in int and overflows."},
{"property": "C49", "status": "partial", "theorems": ["SPVM.FnStr.c49_first_partial", "SPVM.FnStr.c49_first_empty_violated"], "note": "The empty string throws instead of being returned (violated theorem)."},
{"property": "C50", "status": "partial", "theorems": ["SPVM.FnStr.c50_classes_partial", "SPVM.FnStr.c50_to_lower_upper", "SPVM.FnStr.c50_blank_violated", "SPVM.FnStr.c50_abs_partial", "SPVM.FnStr.c50_labs_partial", "SPVM.FnStr.c50_abs_violated"], "note": "is_blank is wrong (violated theorem says exactly where it is true); abs/labs of the least value overflow."},
{"property": "C51", "status": "partial", "theorems": ["SPVM.FnStr.c51_chomp", "SPVM.FnStr.c51_shorten", "SPVM.FnStr.c51_shorten_null_char", "SPVM.FnStr.c51_replace_chars", "SPVM.FnStr.c51_equals_range_partial", "SPVM.FnStr.c51_equals_range_violated"], "note": "equals_string_range checks the second range with the first offset (violated theorem)."},
{"property": "C52", "status": "partial", "theorems": ["SPVM.Utf8.c52_utf8_length", "SPVM.Utf8.c52_to_utf8_chars", "SPVM.Utf8.c52_utf8_substr", "SPVM.Utf8.c52_utf8_substr_invalid_violated", "SPVM.Utf8.c52_throws"], "note": "utf8_substr does not look at the string after the range, so an invalid string need not throw (violated theorem); offset+length must not overflow int."},
{"property": "C53", "status": "partial", "theorems": ["SPVM.Fields.c53_layout", "SPVM.Fields.c53_set_get", "SPVM.Fields.c53_new_zero", "SPVM.Fields.c53_subclass_layout", "SPVM.Fields.c53_names_unique", "SPVM.Fields.c53_redeclared", "SPVM.Fields.c53_all_fields_partial", "SPVM.Fields.c53_fields_after_redeclaration_violated"], "note": "Layout, access, inheritance of layouts and name uniqueness are proved for every class hierarchy. That every declared field is in the object is proved when no field is redeclared; the compiler drops the fields after a redeclared one, which is proved as a violation."},
{"property": "C54", "status": "proved", "theorems": ["SPVM.Flow.switch_double_cases", "SPVM.Flow.switch_table_sorted", "SPVM.Flow.switch_lookup"], "note": "Exchange sort, duplicate test and binary search for all lists of constants; that the builder writes this table is part of the C55 theorems (flow_switch_partial)."},
{"property": "C55", "status": "partial", "theorems": ["SPVM.Flow.flow_compiles", "SPVM.Flow.flow_ends_partial", "SPVM.Flow.flow_defined_partial", "SPVM.Flow.flow_reflects_partial", "SPVM.Flow.flow_switch_partial", "SPVM.Flow.flow_unique_partial", "SPVM.Flow.flow_nested_eval_violated", "SPVM.Flow.flow_branch_declaration_violated", "SPVM.Flow.flow_condition_declaration_violated"], "note": "Both directions (a run of the machine ends iff the statements end, with the same state and error), and no undefined behaviour, for every accepted body without nested eval and without object declarations in branches of && / || or in loop conditions and increments. In those three cases the property fails: one witness each."},
{"property": "C56", "status": "partial", "theorems": ["SPVM.Vars.vars_accepts", "SPVM.Vars.vars_errors", "SPVM.Vars.vars_meaning", "SPVM.Vars.vars_declaration", "SPVM.Vars.vars_in_frame", "SPVM.Vars.vars_apart", "SPVM.Vars.vars_mortal_apart", "SPVM.Vars.vars_condition_flag", "SPVM.Vars.vars_frame_partial", "SPVM.Vars.vars_frame_violated"], "note": "Complete for frames of less than 2^31 bytes; the size of a larger frame overflows int (vars_frame_violated)."},
{"property": "C57", "status": "partial", "theorems": ["SPVM.Conc.conc_defined_partial", "SPVM.Conc.conc_no_dangling_partial", "SPVM.Conc.conc_no_leak_partial", "SPVM.Conc.conc_count_partial", "SPVM.Conc.conc_freed_partial", "SPVM.Conc.conc_shared_read_violated", "SPVM.Conc.conc_late_set_violated", "SPVM.Conc.conc_late_leak_violated", "SPVM.Conc.conc_destroy_once_violated"], "note": "Proved for schedules in which nobody overwrites a place between the unlocked read of a reference and its use, and in which no field of an object is set again while the object is being destroyed. The violated theorems show use after free and a leak without these rules, and that DESTROY can run twice for one object."},
{"property": "C58", "status": "partial", "theorems": ["SPVM.Types.cast_accepts_partial", "SPVM.Types.cast_result_partial", "SPVM.Types.cast_type_safe_partial", "SPVM.Types.cast_interface_partial", "SPVM.Types.cast_box_round_trip", "SPVM.Types.cast_bytes_round_trip", "SPVM.Types.cast_mutable_violated", "SPVM.Types.cast_array_violated", "SPVM.Types.cast_numeric_object_violated", "SPVM.Types.cast_undef_bytes_violated", "SPVM.Types.cast_interface_violated", "SPVM.Types.cast_interface_arrays_violated"], "note": "For all programs, types and values the accepted casts are those of the specification, have an operation, and yield a value of the type or throw. Missing: the families proved to fail (mutable string from object, numeric arrays from the element type, numeric objects from themselves, string from undefined byte[], casts to interfaces of objects of a sub class)."},
{"property": "C59", "status": "partial", "theorems": ["SPVM.Literal.literal_int_partial", "SPVM.Literal.literal_least_violated", "SPVM.Literal.literal_consumes", "SPVM.Literal.literal_safe_partial", "SPVM.Literal.literal_end_violated", "SPVM.Literal.literal_decimal_sound", "SPVM.Literal.literal_bad_digit", "SPVM.Literal.literal_float_partial", "SPVM.Literal.literal_hex_float_partial", "SPVM.Literal.literal_float_sum_violated", "SPVM.Literal.literal_hex_float_sum_violated", "SPVM.Literal.literal_hex_underline_violated", "SPVM.Literal.literal_hex_violated", "SPVM.Literal.literal_empty_violated", "SPVM.Literal.literal_minus_violated"], "note": "Proved for all integer literals in the four notations except those with a minus whose bits are the least value (proved to be undefined behaviour); accepted decimal literals are proved to be exactly such; for hexadecimal the converse fails (witnesses). strtof and strtod are parameters. Floating point literals, decimal and hexadecimal with an exponent, are proved when no plus or minus follows; hexadecimal ones without an exponent: only safety and consumption."},
{"property": "C60", "status": "partial", "theorems": ["SPVM.StrLit.string_literal", "SPVM.StrLit.string_literal_unique", "SPVM.StrLit.string_literal_any", "SPVM.StrLit.string_literal_length", "SPVM.StrLit.string_expansion", "SPVM.StrLit.string_expansion_forms", "SPVM.StrLit.string_safe_partial", "SPVM.StrLit.string_closed_safe", "SPVM.StrLit.string_backslash_violated", "SPVM.StrLit.string_brace_violated", "SPVM.StrLit.string_arrow_violated", "SPVM.StrLit.string_raw_violated", "SPVM.StrLit.single_literal", "SPVM.StrLit.single_literal_any", "SPVM.StrLit.single_safe_partial", "SPVM.StrLit.single_backslash_violated", "SPVM.StrLit.char_literal", "SPVM.StrLit.char_safe_partial", "SPVM.StrLit.char_end_violated"], "note": "Acceptance and value of the three kinds of literals are characterised exactly for all texts. The claim that no text is read past its end or forever is false for a backslash at the end of the source and for a variable followed by a closing brace, exactly those (string_safe_partial is an equivalence); proved as violations. \\8 and \\9 are accepted though not documented."},
{"property": "C61", "status": "partial", "theorems": ["SPVM.Expr.expr_correct_partial", "SPVM.Expr.compile_iff", "SPVM.Expr.pure_correct", "SPVM.Expr.expr_frame_partial", "SPVM.Expr.expr_types_partial", "SPVM.Expr.expr_throws_partial", "SPVM.Expr.late_read_violated", "SPVM.Expr.late_read_converted", "SPVM.Expr.assigned_read_violated", "SPVM.Expr.lost_assignment_violated"], "note": "Acceptance is exact for all expressions. Values and effects are proved for all expressions in which no operand is a variable that a later operand assigns to and no nested sequence is assigned; for expressions without assignments inside (pure_correct) there is no restriction. The remaining cases are violated by the code (witnesses)."},
{"property": "C62", "status": "partial", "theorems": ["SPVM.Expr.logic_correct_partial", "SPVM.Expr.if_correct_partial", "SPVM.Expr.short_circuit_partial", "SPVM.Expr.compileCond_iff", "SPVM.Expr.de_morgan", "SPVM.Expr.if_congr_partial", "SPVM.Expr.bool_undef_violated"], "note": "Violated: an undef variable of type Bool in a condition is read through a null pointer. Operands are numeric expressions for which C61 holds, object variables, reference variables and undef; the blocks of if are straight-line code here (see C55 for nested statements)."},
{"property": "C63", "status": "partial", "theorems": ["SPVM.Safety.type_safe_partial", "SPVM.Safety.variable_isa_partial", "SPVM.Safety.array_store_violated", "SPVM.Safety.multi_store_violated", "SPVM.Safety.mutable_cast_violated", "SPVM.Safety.make_read_only_undef_violated", "SPVM.Safety.box_violated", "SPVM.Safety.interface_violated"], "note": "Proved for all executions of accepted programs, except for the operations that neither compiler nor run time checks (shown by the _violated theorems): stores into arrays of sub classes, casts to mutable string from object, make_read_only undef, negative Fn->memcpy offsets. For interface types only: some instance."},
{"property": "C64", "status": "partial", "theorems": ["SPVM.Safety.read_only_forever_partial", "SPVM.Safety.literal_frozen", "SPVM.Safety.make_read_only_frozen", "SPVM.Safety.new_string_mutable", "SPVM.Safety.is_read_only_stays", "SPVM.Safety.read_only_argument_violated", "SPVM.Safety.read_only_alias_violated"], "note": "Except for calls through a declaration with string of a method with mutable string, and for strings that a mutable string variable refers to when they are made read-only; both are shown to change."},
{"property": "C65", "status": "partial", "theorems": ["SPVM.Args.method_accepts", "SPVM.Args.call_accepted", "SPVM.Args.call_rejected", "SPVM.Args.call_accepts", "SPVM.Args.call_binds_partial", "SPVM.Args.dispatch_binds_partial", "SPVM.Args.override_checked", "SPVM.Args.return_value_partial", "SPVM.Args.optional_override_violated", "SPVM.Args.three_dimensions_violated", "SPVM.Args.wide_return_violated"], "note": "Violated by the code in three cases, each with a witness: an implementation that makes an optional parameter required reads a stale stack cell (optional_override_violated); parameters of three or more dimensions hit assert(0) (three_dimensions_violated); multi-numeric return values of more than 255 fields lose fields (wide_return_violated). The binding and return theorems hold outside of these cases."},
{"property": "C66", "status": "partial", "theorems": ["SPVM.Toke.line_numbers_partial", "SPVM.Toke.token_count", "SPVM.Toke.tokens_complete", "SPVM.Toke.operators_partial", "SPVM.Toke.angles_partial", "SPVM.Toke.blanks_skipped", "SPVM.Toke.line_directive", "SPVM.Toke.file_directive", "SPVM.Toke.lib_directive", "SPVM.Toke.directives_placed", "SPVM.Toke.keywords_found", "SPVM.Toke.names_found", "SPVM.Toke.fat_comma_names", "SPVM.Toke.outmost_found", "SPVM.Toke.variables_found", "SPVM.Toke.variable_unclosed", "SPVM.Toke.dollars_found", "SPVM.Toke.here_documents", "SPVM.Toke.here_refused", "SPVM.Toke.string_expansion_tokens", "SPVM.Toke.quoted_tokens", "SPVM.Toke.constant_tokens", "SPVM.Toke.characters_refused", "SPVM.Toke.source_characters", "SPVM.Toke.swallowed_violated", "SPVM.Toke.minus_violated", "SPVM.Toke.lines_violated", "SPVM.Toke.line_directive_violated", "SPVM.Toke.accepted_violated", "SPVM.Toke.unclosed_violated", "SPVM.Toke.line_directive_range"], "note": "Every kind of token is proved for all texts around it. Partial because the code violates the property: <, > and scalar swallow the next character, - before a digit is always a sign, and some line feeds are not counted; these are proved as counterexamples."},
{"property": "C67", "status": "partial", "theorems": ["SPVM.Access.new_access_partial", "SPVM.Access.new_refused", "SPVM.Access.class_var_access_partial", "SPVM.Access.own_class_var", "SPVM.Access.class_var_unknown", "SPVM.Access.class_call_partial", "SPVM.Access.instance_call_partial", "SPVM.Access.super_call_partial", "SPVM.Access.static_call_partial", "SPVM.Access.field_access_partial", "SPVM.Access.inherited_field_partial", "SPVM.Access.field_unknown", "SPVM.Access.attributes", "SPVM.Access.attributes_accepted", "SPVM.Access.attributes_refused", "SPVM.Access.allow_anon_violated", "SPVM.Access.anon_private_violated", "SPVM.Access.redeclared_field_violated", "SPVM.Access.private_own_violated", "SPVM.Access.sibling_violated", "SPVM.Access.child_allow_violated"], "note": "Proved for new, class variables, method calls and fields declared in the type of the invocant, except that allow does not reach anon methods. Inherited fields: accepted accesses outside anon methods are permitted unless the child class allows the current class. The violated theorems show the deviations of the code."},
{"property": "C68", "status": "partial", "theorems": ["SPVM.Parse.parse_iff_partial", "SPVM.Parse.described_text", "SPVM.Parse.unambiguous", "SPVM.Parse.parse_ends", "SPVM.Parse.short_text", "SPVM.Parse.unknown_code", "SPVM.Parse.sums_group_left", "SPVM.Parse.parse_deep_violated", "SPVM.Parse.parens_accepted", "SPVM.Parse.empty_block_violated", "SPVM.Parse.comparisons_do_not_chain", "SPVM.Parse.product_first"], "note": "Sound, complete, unambiguous and terminating for every token sequence, relative to the documented rules together with the documented precedence and the choices listed in DESIGN.md. Two parts of the property are false of the code: a program whose tree needs 9999 or more symbols at once is refused (parse_deep_violated; up to 2497 tokens this cannot happen, short_text), and an empty block as a statement, which the documented rules derive, is a syntax error (empty_block_violated)."},
{"property": "C69", "status": "partial", "theorems": ["SPVM.Load.compile_iff_partial", "SPVM.Load.compile_anon_iff_partial", "SPVM.Load.require_block", "SPVM.Load.failed_compile_restores", "SPVM.Load.classes_keep_their_place", "SPVM.Load.failed_compile_harmless_partial", "SPVM.Load.class_files_differ", "SPVM.Load.corrected_file_violated", "SPVM.Load.class_file_kept_violated", "SPVM.Load.anon_class_after_error_violated", "SPVM.Load.freed_name_violated", "SPVM.Load.tenth_anon_class_violated", "SPVM.Load.unnamed_class_violated", "SPVM.Load.anon_method_in_anon_class_violated", "SPVM.Load.anon_method_position_violated", "SPVM.Load.missing_class_hidden_violated", "SPVM.Load.generated_name_hangs_violated"], "note": "The real code violates parts of the property (see the _violated theorems); proved for all histories, directories and sources on which it does not go wrong."},
{"property": "C70", "status": "partial", "theorems": ["SPVM.Dump.dump_iff", "SPVM.Dump.dump_unique", "SPVM.Dump.dump_ends_partial", "SPVM.Dump.dump_plain_string", "SPVM.Dump.dump_array_cycle_violated", "SPVM.Dump.dump_mulnum_indent_violated"], "note": "The real code shows an array that contains itself without end (dump_array_cycle_violated); proved for all other object graphs."},
{"property": "C71", "status": "partial", "theorems": ["SPVM.Decl.accessor_types", "SPVM.Decl.class_ok_iff", "SPVM.Decl.enum_value", "SPVM.Decl.classVar_getter", "SPVM.Decl.classVar_setter_partial", "SPVM.Decl.value_setter_violated", "SPVM.Decl.stored_unique", "SPVM.Decl.field_getter", "SPVM.Decl.field_setter", "SPVM.Decl.self_setter_violated", "SPVM.Decl.user_method", "SPVM.Decl.no_other_method", "SPVM.Decl.class_version", "SPVM.Decl.history_partial", "SPVM.Decl.enum_after_syntax_error_violated", "SPVM.Decl.enum_max_violated", "SPVM.Decl.enum_max_iff"], "note": "All proved but for what the code violates: the writer of a class variable named $value does nothing, a syntax error inside an enumeration changes the values of the next compilation, an item of the largest int is undefined behaviour; these cases are excluded in the partial theorems and shown as violated."},
{"property": "C72", "status": "partial", "theorems": ["SPVM.Precomp.lookups_sound", "SPVM.Precomp.lookups_exact_partial", "SPVM.Precomp.ident_unique_partial", "SPVM.Precomp.symbol_unique_partial", "SPVM.Precomp.lookup_missing_violated", "SPVM.Precomp.lookup_class_missing_violated", "SPVM.Precomp.lookup_label_violated", "SPVM.Precomp.lookup_wrong_violated", "SPVM.Precomp.symbol_clash_violated"], "note": "Proved for names which do not end with an underscore (and class names not ending with basic_type); no identifier is declared twice for any names. Names ending with an underscore violate it: lookups are left out or refer to another entity, and C functions clash."},
{"property": "C73", "status": "partial", "theorems": ["SPVM.Precomp.interpreted", "SPVM.Precomp.precompiled_says_partial", "SPVM.Precomp.precompiled_as_interpreted_partial", "SPVM.Precomp.constant_string_literal", "SPVM.Precomp.precompiled_names_violated", "SPVM.Precomp.precompiled_path_violated"], "note": "Proved for every operation code and every method whose names are tidy and whose texts need no escapes in C; both conditions are needed: the code violates the property without them."},
{"property": "C74", "status": "proved", "theorems": ["SPVM.Hash.c74_typed_history", "SPVM.Hash.c74_copy", "SPVM.Hash.c74_unsorted"], "note": "All histories, all hash functions. A key with an undefined value reads as undef with get_string and throws with the numeric getters."},
{"property": "C75", "status": "partial", "theorems": ["SPVM.Exch.c75_number_array_accepts", "SPVM.Exch.c75_number_array_shows", "SPVM.Exch.c75_integers_unchanged", "SPVM.Exch.c75_doubles_unchanged", "SPVM.Exch.c75_binary", "SPVM.Exch.c75_binary_copy", "SPVM.Exch.c75_mulnum_binary", "SPVM.Exch.c75_string", "SPVM.Exch.c75_string_array", "SPVM.Exch.c75_object_array", "SPVM.Exch.c75_mulnum_array", "SPVM.Exch.c75_get_set", "SPVM.Exch.c75_get_set_object_partial", "SPVM.Exch.c75_error_frees_violated", "SPVM.Exch.c75_index_violated", "SPVM.Exch.c75_set_type_violated", "SPVM.Exch.c75_set_scalar_violated", "SPVM.Exch.c75_get_kind_violated", "SPVM.Exch.c75_get_mulnum_violated", "SPVM.Exch.c75_to_elems_kind_violated", "SPVM.Exch.c75_to_bin_large_violated", "SPVM.Exch.c75_address_violated"], "note": "Arrays, strings and binaries proved in full. get and set of object arrays only for objects that fit: the code does not check the type in a one-dimensional array, wraps the index at 32 bits, crashes on multi-numeric arrays and scalars, and shows strings and undefined elements with the wrong kind; an element error leaks the array."},
{"property": "C76", "status": "partial", "theorems": ["SPVM.Exch.c76_lookup", "SPVM.Exch.c76_name_kept", "SPVM.Exch.c76_call_partial", "SPVM.Exch.c76_wrong_count", "SPVM.Exch.c76_bad_argument", "SPVM.Exch.c76_not_found", "SPVM.Exch.c76_multi_dim_violated", "SPVM.Exch.c76_ref_assert_violated", "SPVM.Exch.c76_unknown_class_violated", "SPVM.Exch.c76_colon_violated", "SPVM.Exch.c76_name_changed_violated", "SPVM.Exch.c76_exception_text_violated"], "note": "Proved when only the last argument given is for a parameter of two or more dimensions; the code drops the arguments after one (c76_multi_dim_violated). The code also violates the property for unknown class names, for names that start with a colon, for exception texts with NUL, for the caller's name after an error and, with assertions, for references."},
{"property": "C77", "status": "partial", "theorems": ["SPVM.Expr.body_compiles_partial", "SPVM.Expr.body_rejects_partial", "SPVM.Expr.body_ends_partial", "SPVM.Expr.body_reflects_partial", "SPVM.Expr.body_stays_partial", "SPVM.Expr.body_unique_partial"], "note": "Proved under the rules of C61 and C62 (outside them the real compiler violates those properties), without eval inside eval (C55 shows that it fails there), and for calls whose arguments are not changed by later arguments (C78 shows that it fails there)."},
{"property": "C78", "status": "partial", "theorems": ["SPVM.Expr.program_compiles_partial", "SPVM.Expr.program_rejects_partial", "SPVM.Expr.program_ends_partial", "SPVM.Expr.program_reflects_partial", "SPVM.Expr.program_unique_partial", "SPVM.Expr.program_stays_partial", "SPVM.Expr.late_argument_violated"], "note": "Proved under the rules of C77; arguments that later arguments of the same call assign to are passed with the wrong value (late_argument_violated)."},
{"property": "C79", "status": "proved", "theorems": ["SPVM.FnCallback.calls_exist", "SPVM.FnCallback.calls_unique", "SPVM.FnCallback.grep_correct", "SPVM.FnCallback.grep_throws", "SPVM.FnCallback.map_correct", "SPVM.FnCallback.map_throws", "SPVM.FnCallback.map_type", "SPVM.FnCallback.map_expand_correct", "SPVM.FnCallback.map_expand_throws", "SPVM.FnCallback.map_expand_type", "SPVM.FnCallback.undefined_arguments", "SPVM.FnCallback.pure_callbacks"], "note": "For every array and callback with any effects; memory for twice the result is assumed."},
{"property": "C80", "status": "proved", "theorems": ["SPVM.Options.merge_options", "SPVM.Options.merge_pairs", "SPVM.Options.check_passes", "SPVM.Options.check_throws", "SPVM.Options.check_decides", "SPVM.Options.check_available", "SPVM.Options.sort_options", "SPVM.Options.sort_options_throws", "SPVM.Options.sort_options_cases"], "note": "All three methods, with every outcome; only memory and array length are assumed."},
{"property": "C81", "status": "partial", "theorems": ["SPVM.Init.init_runs", "SPVM.Init.init_order", "SPVM.Init.init_after_needs", "SPVM.Init.init_first", "SPVM.Init.init_complete", "SPVM.Init.init_once", "SPVM.Init.init_after_error_violated", "SPVM.Init.init_api_violated", "SPVM.Init.init_deep_violated"], "note": "Proved for all class graphs of at most 999 types, all blocks and all histories. Violated by the code: a second call after an exception reports success although blocks never ran, Native::API->call_init_methods drops exceptions, and chains of more than 1000 uses fail."},
{"property": "C82", "status": "partial", "theorems": ["SPVM.MethodCall.call_returns_partial", "SPVM.MethodCall.call_throws", "SPVM.MethodCall.call_refuses_partial", "SPVM.MethodCall.lookup", "SPVM.MethodCall.calls_by_name", "SPVM.MethodCall.dimension_violated", "SPVM.MethodCall.undef_return_violated", "SPVM.MethodCall.separate_stack_violated"], "note": "For calls on the caller's own stack, arguments whose dimension plays no part, and defined return objects; the missing cases are real violations, proved as such."},
{"property": "C83", "status": "partial", "theorems": ["SPVM.Immutable.never_changes_partial", "SPVM.Immutable.new_copies_partial", "SPVM.Immutable.new_empty", "SPVM.Immutable.new_len", "SPVM.Immutable.reads_contents", "SPVM.Immutable.to_array_copies_partial", "SPVM.Immutable.defined_partial", "SPVM.Immutable.double_to_array_violated", "SPVM.Immutable.undef_string_violated"], "note": "holds for every program except Immutable::DoubleList->to_array, which hands out the array of the list, and Immutable::StringList->new with undef, which is undefined behaviour; both witnesses are proved"},
{"property": "C84", "status": "partial", "theorems": ["SPVM.Destroy.events_of_run", "SPVM.Destroy.history", "SPVM.Destroy.freed_or_alive", "SPVM.Destroy.calls_counted", "SPVM.Destroy.exactly_once_partial", "SPVM.Destroy.no_destructor", "SPVM.Destroy.revived_violated", "SPVM.Destroy.unreferenced_at_call_partial", "SPVM.Destroy.not_reentered_partial"], "note": "full except for objects that get a new reference while they are being destroyed: these are kept and DESTROY is called again (revived_violated); one thread, as in C32 At a call nothing holds a strong reference to the object, and a call is over before the next one for the same object (both under the condition of C32)."},
{"property": "C85", "status": "partial", "theorems": ["SPVM.CloneEq.copy_all", "SPVM.CloneEq.copy_throws", "SPVM.CloneEq.copy_type", "SPVM.CloneEq.copy_address", "SPVM.CloneEq.copy_bad_range", "SPVM.CloneEq.equals_calls", "SPVM.CloneEq.equals_no_calls", "SPVM.CloneEq.equals_pure", "SPVM.CloneEq.clone_point", "SPVM.CloneEq.eq_points_partial", "SPVM.CloneEq.same_value_equivalence", "SPVM.CloneEq.eq_not_symmetric_violated", "SPVM.CloneEq.copy_points", "SPVM.CloneEq.copy_equals_points", "SPVM.CloneEq.clear_one"], "note": "Partial: equality of a Point and a Point3D depends on the order of the arguments (eq_not_symmetric_violated); everything else holds for all arrays, ranges, cloners and checkers."},
{"property": "C86", "status": "partial", "theorems": ["SPVM.Reflect.described", "SPVM.Reflect.build_succeeds", "SPVM.Reflect.old_types_kept", "SPVM.Reflect.unknown_id", "SPVM.Reflect.field_by_name", "SPVM.Reflect.class_var_by_name", "SPVM.Reflect.no_destructor", "SPVM.Reflect.destructor_found_partial", "SPVM.Reflect.own_destructor", "SPVM.Reflect.inherited_destructor_partial", "SPVM.Reflect.inherited_destructor_lost", "SPVM.Reflect.fresh_parent_after", "SPVM.Reflect.add_basic_type", "SPVM.Reflect.is_precompile", "SPVM.Reflect.set_fallback", "SPVM.Reflect.fallback_flag_unreadable", "SPVM.Reflect.inherited_destructor_violated", "SPVM.Reflect.inherited_destructor_ub_violated", "SPVM.Reflect.fallback_flag_violated"], "note": "Everything but inherited destructors and the fallback flag is described correctly for all programs and all sequences of compilations. Violated by the code: a destructor inherited from a class that was met after its subclass is lost (silently, or a wild pointer is called), and is_precompile_fallback answers is_precompile."},
{"property": "C87", "status": "partial", "theorems": ["SPVM.Mutex.mutual_exclusion", "SPVM.Mutex.no_error", "SPVM.Mutex.holds_what_it_says", "SPVM.Mutex.held_memory_stable", "SPVM.Mutex.only_owner_writes", "SPVM.Mutex.no_deadlock", "SPVM.Mutex.released_at_end", "SPVM.Mutex.no_lost_update", "SPVM.Mutex.adders_end", "SPVM.Mutex.readers_see_whole_writes", "SPVM.Mutex.unlock_unheld_violated", "SPVM.Mutex.relock_violated", "SPVM.Mutex.foreign_unlock_violated", "SPVM.Mutex.upgrade_blocks_violated", "SPVM.Mutex.unguarded_update_lost"], "note": "All schedules of all disciplined threads. Missing: misuse does not throw; witnesses proved. POSIX rwlock semantics trusted."},
{"property": "C88", "status": "partial", "theorems": ["SPVM.Build.incremental_eq_clean_partial", "SPVM.Build.calm_edit_later", "SPVM.Build.force_eq_clean", "SPVM.Build.build_keeps_sources", "SPVM.Build.build_again", "SPVM.Build.compiled_only_if_needed", "SPVM.Build.need_generate_iff", "SPVM.Build.cfunc_name_unique_partial", "SPVM.Build.cfunc_name_unique_in_class", "SPVM.Build.object_file_unique_partial", "SPVM.Build.cfunc_name_clash_violated", "SPVM.Build.object_file_clash_violated", "SPVM.Build.same_second_violated", "SPVM.Build.used_class_violated", "SPVM.Build.removed_source_violated", "SPVM.Build.old_time_violated"], "note": "All histories in which files are saved in a later second than the last build wrote and are not removed, and used classes are not edited. Missing: the excluded histories, for which the code keeps old outputs (witnesses proved); names with class parts ending in an underscore and sources that differ only in the extension clash (witnesses proved)."},
{"property": "C89", "status": "partial", "theorems": ["SPVM.Except.caught_partial", "SPVM.Except.caught_deep", "SPVM.Except.eval_catches", "SPVM.Except.chain_trace", "SPVM.Except.eval_clears", "SPVM.Except.api_die_partial", "SPVM.Except.api_die_bounded", "SPVM.Except.undef_message_violated", "SPVM.Except.zero_id_violated", "SPVM.Except.deep_trace_violated", "SPVM.Except.api_die_long_violated", "SPVM.Except.api_die_format_violated"], "note": "caught_partial proves it for programs whose die statements have a defined message and a non-zero ID, up to call depth 100; caught_deep gives the exact message at any depth. Outside these conditions it is false, see the witnesses. Strings of 2^31 bytes and memory exhaustion are not modelled."},
{"property": "C90", "status": "partial", "theorems": ["SPVM.ArrayAny.equals_num_partial", "SPVM.ArrayAny.equals_str", "SPVM.ArrayAny.equals_obj", "SPVM.ArrayAny.equals_mixed", "SPVM.ArrayAny.copy_any_partial", "SPVM.ArrayAny.to_object_array", "SPVM.ArrayAny.to_array", "SPVM.ArrayAny.box_round_trip", "SPVM.ArrayAny.to_array_undef", "SPVM.ArrayAny.equals_zero_violated", "SPVM.ArrayAny.equals_big_violated", "SPVM.ArrayAny.copy_any_overflow_violated"], "note": "Numbers are compared by their bytes: equal to == for the integer types; for float and double 0.0 and -0.0 differ (witness). Arrays of 2^31 bytes and more and ranges whose end leaves int overflow (witnesses)."},
{"property": "C91", "status": "partial", "theorems": ["SPVM.Guard.call_guards_once_partial", "SPVM.Guard.block_guards_once_partial", "SPVM.Guard.eval_guards_once_partial", "SPVM.Guard.guards_do_not_disturb", "SPVM.Guard.callback_dies", "SPVM.Guard.order_of_guards_violated", "SPVM.Guard.deep_guard_violated"], "note": "Every guard is called exactly once by the end of its block, eval block and method call, on every way out, and changes neither $@ nor the error under way. Partial: at the deepest two call levels the callback is not called (deep_guard_violated), and the order of calls depends on the way out (order_of_guards_violated)."},
{"property": "C92", "status": "partial", "theorems": ["SPVM.Complex.from_pairs_partial", "SPVM.Complex.from_pairs_accepts_partial", "SPVM.Complex.to_pairs_partial", "SPVM.Complex.pairs_round_trip_partial", "SPVM.Complex.to_parts", "SPVM.Complex.from_parts", "SPVM.Complex.parts_of_pairs_partial", "SPVM.Complex.pairs_big_violated"], "note": "All functions give exactly the documented parts and pairs. Partial: the pairs functions only while the array has less than 2^31 bytes; beyond that the byte count overflows (pairs_big_violated)."},
{"property": "C93", "status": "partial", "theorems": ["SPVM.Mulnum.accepted_iff", "SPVM.Mulnum.name_determines_fields", "SPVM.Mulnum.rejected_partial", "SPVM.Mulnum.short_name_violated", "SPVM.Mulnum.mixed_fields_violated"], "note": "Acceptance is characterised exactly, for every class. Partial: for a name shorter than its required end and for fields of different types the check is undefined instead of a proper rejection (witnesses proved)."},
{"property": "C94", "status": "partial", "theorems": ["SPVM.MSort.preorder_undefFirst", "SPVM.MSort.default_answers", "SPVM.MSort.default_throws", "SPVM.MSort.sort_default_partial", "SPVM.MSort.mixed_classes_violated"], "note": "Proved for every cmp that is one total preorder. Partial: objects of several classes whose cmp methods disagree (mixed_classes_violated), and more than 2^30 elements (C10)."},
{"property": "C95", "status": "proved", "theorems": ["SPVM.DumpU.dump_unsigned", "SPVM.DumpU.dump_undef", "SPVM.DumpU.dump_determines"], "note": "All four element types, all lengths and values, with memory for twice the text."}
]}
