{
 "claims": [
  {
   "property": "C01",
   "status": "proved",
   "theorems": [
    "Gotcha.C01_wired",
    "Gotcha.C01_calls_run_the_whole_stack",
    "Gotcha.C01_client_functions"
   ],
   "note": ""
  },
  {
   "property": "C02",
   "status": "proved",
   "theorems": [
    "Gotcha.C02_priority_order",
    "Gotcha.C02_set_priority_does_not_reorder"
   ],
   "note": ""
  },
  {
   "property": "C03",
   "status": "proved",
   "theorems": [
    "Gotcha.C03_equal_priority_first_is_outermost",
    "Gotcha.C03_documented_fifo_refuted"
   ],
   "note": ""
  },
  {
   "property": "C04",
   "status": "proved",
   "theorems": [
    "Gotcha.C04_wrappee_is_next",
    "Gotcha.C04_no_cycles"
   ],
   "note": ""
  },
  {
   "property": "C05",
   "status": "proved",
   "theorems": [
    "Gotcha.C05_rewrap_harmless_refuted",
    "Gotcha.C05_rewrap_loops_forever",
    "Gotcha.C05_rewrapped_calls_never_return"
   ],
   "note": "False of the code as a wish; the refutation is proved in general: after any history, wrapping bindings again makes every call through them loop for ever."
  },
  {
   "property": "C06",
   "status": "proved",
   "theorems": [
    "Gotcha.C06_real_is_first_definition"
   ],
   "note": ""
  },
  {
   "property": "C07",
   "status": "proved",
   "theorems": [
    "Gotcha.C07_return_code"
   ],
   "note": ""
  },
  {
   "property": "C08",
   "status": "proved",
   "theorems": [
    "Gotcha.C08_pending_resolved_by_dlopen",
    "Gotcha.C08_resolved_stays"
   ],
   "note": ""
  },
  {
   "property": "C09",
   "status": "proved",
   "theorems": [
    "Gotcha.C09_dlopen_rewires_everything"
   ],
   "note": ""
  },
  {
   "property": "C10",
   "status": "proved",
   "theorems": [
    "Gotcha.C10_only_slots_of_wrapped_functions"
   ],
   "note": ""
  },
  {
   "property": "C11",
   "status": "proved",
   "theorems": [
    "Gotcha.C11_words_never_admitted",
    "Gotcha.C11_rejected_library_untouched",
    "Gotcha.C11_filter_by_name"
   ],
   "note": ""
  },
  {
   "property": "C12",
   "status": "proved",
   "theorems": [
    "Gotcha.C12_lifted_filter_refuted",
    "Gotcha.C12_lifted_filter_comes_too_late"
   ],
   "note": "Refutation by a concrete history evaluated in the kernel, and the general form for every process: a library let in again before a gotcha_wrap for other functions is never intercepted for the earlier ones."
  },
  {
   "property": "C13",
   "status": "proved",
   "theorems": [
    "Gotcha.C13_main_through_libc_start_main"
   ],
   "note": ""
  },
  {
   "property": "C14",
   "status": "proved",
   "theorems": [
    "Gotcha.C14_main_with_others_refuted",
    "Gotcha.C14_main_hides_the_rest_of_the_table"
   ],
   "note": "Refutation by a concrete history evaluated in the kernel, and the general form for every process: the first table that names main leaves the slots of all other functions as they were."
  },
  {
   "property": "C15",
   "status": "proved",
   "theorems": [
    "Gotcha.C15_dlclose_and_dlopen_refuted",
    "Gotcha.C15_new_object_is_intercepted",
    "Gotcha.C15_reloaded_library_is_not_intercepted"
   ],
   "note": "Refuted for the same object loaded again at the same link_map address: a concrete history, and C15_reloaded_library_is_not_intercepted for every process and history. Interception of an object not loaded before, also at the link_map address of an unloaded one, is proved in general."
  },
  {
   "property": "C16",
   "status": "proved",
   "theorems": [
    "Gotcha.C16_silent_load_refuted",
    "Gotcha.C16_silently_loaded_stays_unwrapped"
   ],
   "note": "Refutation by a concrete history evaluated in the kernel, and the general form for every process."
  },
  {
   "property": "C17",
   "status": "proved",
   "theorems": [
    "Gotcha.C17_dlsym_one_tool",
    "Gotcha.C17_two_tools_bypassed",
    "Gotcha.C17_outermost_wrapper_refuted"
   ],
   "note": "With two tools the wrapper handed out by dlsym is not the outermost (refuted); proved for one tool."
  },
  {
   "property": "C18",
   "status": "proved",
   "theorems": [
    "Gotcha.C18_dlsym_transparent"
   ],
   "note": ""
  },
  {
   "property": "C19",
   "status": "proved",
   "theorems": [
    "Gotcha.C19_rtld_next",
    "Gotcha.C19_unknown_caller_exits"
   ],
   "note": ""
  },
  {
   "property": "C20",
   "status": "proved",
   "theorems": [
    "Gotcha.C20_set_then_get",
    "Gotcha.C20_default",
    "Gotcha.C20_unknown"
   ],
   "note": ""
  },
  {
   "property": "C21",
   "status": "proved",
   "theorems": [
    "Gotcha.C21_tool_list"
   ],
   "note": ""
  },
  {
   "property": "C22",
   "status": "proved",
   "theorems": [
    "Gotcha.C22_attribution"
   ],
   "note": ""
  },
  {
   "property": "C23",
   "status": "proved",
   "theorems": [
    "Gotcha.C23_reload_crash_refuted",
    "Gotcha.C23_reload_crashes",
    "Gotcha.C23_no_fault",
    "Gotcha.C23_only_dlopen_faults",
    "Gotcha.C23_no_fault_without_dlopen"
   ],
   "note": "Without qualification the claim is false of the code (C23_reload_crash_refuted, and C23_reload_crashes for any process and history). With objects that are loaded again having writable slots nothing faults for well-behaved clients; for arbitrary clients the only fault is an intercepted dlopen without a function to forward to."
  },
  {
   "property": "C24",
   "status": "proved",
   "theorems": [
    "Gotcha.C24_indeterminate_only_when_unresolved",
    "Gotcha.C24_which_handle_is_indeterminate",
    "Gotcha.C24_wrappee_always_set_refuted"
   ],
   "note": "False of the code as a wish; the stated refutation is proved, and exactly which handles are indeterminate after every history."
  },
  {
   "property": "C25",
   "status": "proved",
   "theorems": [
    "Gotcha.C25_insertion_is_atomic",
    "Gotcha.C25_rewrap_not_atomic"
   ],
   "note": "Old-or-new proved for tables listing the function once and clients with one handle per binding; GOTCHA's own first registration of dlopen/dlsym/main is excluded for those names. C25_rewrap_not_atomic: passing a table twice is never safe."
  },
  {
   "property": "C26",
   "status": "proved",
   "theorems": [
    "Gotcha.C26_skipping_in_dlopen_loses_nothing",
    "Gotcha.C26_wrap_skips_no_library"
   ],
   "note": ""
  },
  {
   "property": "C27",
   "status": "proved",
   "theorems": [
    "Gotcha.C27_records_belong_to_their_library",
    "Gotcha.C27_collision_refuted",
    "Gotcha.Props.C27_hash",
    "Gotcha.Props.C27_records_in_general",
    "Gotcha.Props.C27_collision_shares",
    "Gotcha.Props.C27_records_in_any_history"
   ],
   "note": "What the code does is settled for every execution: C27_records_in_any_history says which object's record is found whatever the hashes. Without collisions every library has its own record; with one the claim is false of the code (C27_collision_refuted by a run, C27_collision_shares for any two colliding objects)."
  },
  {
   "property": "C28",
   "status": "proved",
   "theorems": [
    "Gotcha.C28_table_is_map",
    "Gotcha.C28_strhash"
   ],
   "note": ""
  },
  {
   "property": "C29",
   "status": "proved",
   "theorems": [
    "Gotcha.C29_count_and_load",
    "Gotcha.C29_add_stores"
   ],
   "note": ""
  },
  {
   "property": "C30",
   "status": "proved",
   "theorems": [
    "Gotcha.C30_grow_preserves"
   ],
   "note": ""
  },
  {
   "property": "C31",
   "status": "proved",
   "theorems": [
    "Gotcha.C31_foreach_visits_once"
   ],
   "note": ""
  },
  {
   "property": "C32",
   "status": "proved",
   "theorems": [
    "Gotcha.C32_first_addition_wins",
    "Gotcha.C32_second_add_does_not_replace",
    "Gotcha.C32_visible_entry_depends_on_other_keys",
    "Gotcha.C32_table_is_bag"
   ],
   "note": "The replacement claim is false of the code (C32_second_add_does_not_replace, C32_visible_entry_depends_on_other_keys). What holds is proved for all histories (C32_table_is_bag), and without removals and growth the first addition wins (C32_first_addition_wins)."
  },
  {
   "property": "C33",
   "status": "proved",
   "theorems": [
    "Gotcha.Props.C33_no_fault",
    "Gotcha.Props.C33_apart",
    "Gotcha.Props.C33_malloc"
   ],
   "note": ""
  },
  {
   "property": "C34",
   "status": "proved",
   "theorems": [
    "Gotcha.Props.C34_tiling"
   ],
   "note": ""
  },
  {
   "property": "C35",
   "status": "proved",
   "theorems": [
    "Gotcha.Props.C35_realloc",
    "Gotcha.Props.C35_others_kept"
   ],
   "note": ""
  },
  {
   "property": "C36",
   "status": "proved",
   "theorems": [
    "Gotcha.Props.C36_best_fit",
    "Gotcha.Props.C36_mmap_last",
    "Gotcha.Props.C36_mmap_length"
   ],
   "note": ""
  },
  {
   "property": "C37",
   "status": "proved",
   "theorems": [
    "Gotcha.Props.C37_rounds_to_zero",
    "Gotcha.Props.C37_huge_size_accepted",
    "Gotcha.Props.C37_negative_difference",
    "Gotcha.Props.C37_area",
    "Gotcha.Props.C37_writes_before_area"
   ],
   "note": ""
  },
  {
   "property": "C38",
   "status": "proved",
   "theorems": [
    "Gotcha.Props.C38_writes_harmless",
    "Gotcha.Props.C38_headers_kept"
   ],
   "note": ""
  },
  {
   "property": "C39",
   "status": "proved",
   "theorems": [
    "Gotcha.LibC.C39_strcmp",
    "Gotcha.LibC.C39_strncmp",
    "Gotcha.LibC.C39_strncmp_strings",
    "Gotcha.LibC.C39_not_an_ordering"
   ],
   "note": ""
  },
  {
   "property": "C40",
   "status": "proved",
   "theorems": [
    "Gotcha.LibC.C40_strstr_result",
    "Gotcha.LibC.C40_strstr_found",
    "Gotcha.LibC.C40_pointer_refuted"
   ],
   "note": ""
  },
  {
   "property": "C41",
   "status": "proved",
   "theorems": [
    "Gotcha.LibC.C41_strlen",
    "Gotcha.LibC.C41_strnlen",
    "Gotcha.LibC.C41_strnlen_overread",
    "Gotcha.LibC.C41_strnlen_unterminated"
   ],
   "note": ""
  },
  {
   "property": "C42",
   "status": "proved",
   "theorems": [
    "Gotcha.LibC.C42_getenv"
   ],
   "note": ""
  },
  {
   "property": "C43",
   "status": "proved",
   "theorems": [
    "Gotcha.LibC.C43_atoi",
    "Gotcha.LibC.C43_atoi_overflow",
    "Gotcha.LibC.C43_atoi_wrap"
   ],
   "note": ""
  },
  {
   "property": "C44",
   "status": "proved",
   "theorems": [
    "Gotcha.Printf.C44_decimal",
    "Gotcha.Printf.C44_hex",
    "Gotcha.Printf.C44_any_size",
    "Gotcha.Printf.C44_signed",
    "Gotcha.Printf.C44_negative_any_size",
    "Gotcha.Printf.C44_signed_min_refuted",
    "Gotcha.Printf.C44_unique"
   ],
   "note": "The smallest signed number overflows (refuted); all other numbers proved."
  },
  {
   "property": "C45",
   "status": "proved",
   "theorems": [
    "Gotcha.Printf.C45_printf",
    "Gotcha.Printf.C45_return"
   ],
   "note": ""
  },
  {
   "property": "C46",
   "status": "proved",
   "theorems": [
    "Gotcha.Printf.C46_exact",
    "Gotcha.Printf.C46_long_refuted"
   ],
   "note": ""
  },
  {
   "property": "C47",
   "status": "proved",
   "theorems": [
    "Gotcha.LibC.C47_memcpy",
    "Gotcha.LibC.C47_memcpy_fault",
    "Gotcha.LibC.C47_memset"
   ],
   "note": ""
  },
  {
   "property": "C48",
   "status": "proved",
   "theorems": [
    "Gotcha.LibC.C48_strncat",
    "Gotcha.LibC.C48_overwrite_refuted",
    "Gotcha.LibC.C48_overread_refuted",
    "Gotcha.LibC.C48_overrun_refuted"
   ],
   "note": "The C contract is refuted (always n bytes copied, faults where strncat does not); what the function does is proved exactly for disjoint buffers."
  },
  {
   "property": "C49",
   "status": "proved",
   "theorems": [
    "Gotcha.Props.C49_gnu_lookup",
    "Gotcha.Props.C49_gnu_missed",
    "Gotcha.Props.C49_gnu_lookup_ascii",
    "Gotcha.Props.C49_non_ascii_missed",
    "Gotcha.Props.C49_non_ascii_refuted",
    "Gotcha.Props.C49_exported",
    "Gotcha.Props.C49_exported_non_ascii"
   ],
   "note": "Proved for every name whose signed-char hash agrees with the ELF hash (all 7-bit names); a name with a number of bytes >= 0x80 that is not a multiple of 32 is proved never to be found through the GNU section."
  },
  {
   "property": "C50",
   "status": "proved",
   "theorems": [
    "Gotcha.Props.C50_sysv_lookup",
    "Gotcha.Props.C50_exported"
   ],
   "note": ""
  },
  {
   "property": "C51",
   "status": "proved",
   "theorems": [
    "Gotcha.Props.C51_gnu_reads",
    "Gotcha.Props.C51_sysv_reads",
    "Gotcha.Props.C51_exported_reads"
   ],
   "note": ""
  },
  {
   "property": "C52",
   "status": "proved",
   "theorems": [
    "Gotcha.Props.C52_rela_visited",
    "Gotcha.Props.C52_rel_visited",
    "Gotcha.Props.C52_no_pltrel_visits_nothing",
    "Gotcha.Props.C52_no_pltrel_refuted"
   ],
   "note": ""
  },
  {
   "property": "C53",
   "status": "proved",
   "theorems": [
    "Gotcha.Props.C53_aligned",
    "Gotcha.Props.C53_covers_got",
    "Gotcha.Props.C53_covers_relro",
    "Gotcha.Props.C53_nothing_else",
    "Gotcha.Props.C53_library",
    "Gotcha.Props.C53_no_pltgot"
   ],
   "note": ""
  },
  {
   "property": "C54",
   "status": "proved",
   "theorems": [
    "Gotcha.Props.C54_region_is_its_own",
    "Gotcha.Props.C54_none_iff",
    "Gotcha.Props.C54_own_segment"
   ],
   "note": ""
  },
  {
   "property": "C55",
   "status": "proved",
   "theorems": [
    "Gotcha.Props.C55_vector",
    "Gotcha.Props.C55_pagesize",
    "Gotcha.Props.C55_errors",
    "Gotcha.Props.C55_once",
    "Gotcha.Props.C55_unterminated"
   ],
   "note": ""
  },
  {
   "property": "C56",
   "status": "proved",
   "theorems": [
    "Gotcha.Props.C56_stable",
    "Gotcha.Props.C56_by_name",
    "Gotcha.Props.C56_by_auxv",
    "Gotcha.Props.C56_by_maps"
   ],
   "note": ""
  },
  {
   "property": "C57",
   "status": "proved",
   "theorems": [
    "Gotcha.Props.C57_line",
    "Gotcha.Props.C57_file"
   ],
   "note": ""
  },
  {
   "property": "C58",
   "status": "proved",
   "theorems": [
    "Gotcha.Props.C58_monotone",
    "Gotcha.Props.C58_components",
    "Gotcha.Props.C58_bounds_needed"
   ],
   "note": ""
  },
  {
   "property": "C59",
   "status": "proved",
   "theorems": [
    "Gotcha.Props.C59_interrupted_line_refuted"
   ],
   "note": "Refutation, for all interrupted reads of the stated kind."
  },
  {
   "property": "C60",
   "status": "proved",
   "theorems": [
    "Gotcha.Props.C60_lookalike_refuted",
    "Gotcha.Props.C60_witness"
   ],
   "note": "Refutation, for all look-alike layouts, with a witness."
  },
  {
   "property": "C61",
   "status": "proved",
   "theorems": [
    "Gotcha.Props.C61_short_line_refuted"
   ],
   "note": "Refutation, for all such lines."
  },
  {
   "property": "C62",
   "status": "proved",
   "theorems": [
    "Gotcha.Utils.C62_silent",
    "Gotcha.Utils.C62_level",
    "Gotcha.Utils.C62_once"
   ],
   "note": ""
  },
  {
   "property": "C63",
   "status": "proved",
   "theorems": [
    "Gotcha.Utils.C63_library_list"
   ],
   "note": ""
  },
  {
   "property": "C64",
   "status": "proved",
   "theorems": [
    "Gotcha.Utils.C64_assert_message"
   ],
   "note": ""
  },
  {
   "property": "C65",
   "status": "proved",
   "theorems": [
    "Gotcha.Autotee.C65_autotee_transparent",
    "Gotcha.Autotee.C65_fwrite_result_refuted"
   ],
   "note": "Proved for fwrite results below 2^31; refuted above (the wrapper returns int)."
  },
  {
   "property": "C66",
   "status": "proved",
   "theorems": [
    "Gotcha.Autotee.C66_autotee_complete",
    "Gotcha.Autotee.C66_init",
    "Gotcha.Autotee.C66_short_write_refuted"
   ],
   "note": "Completeness proved for accepted output; refuted for short writes."
  },
  {
   "property": "C67",
   "status": "proved",
   "theorems": [
    "Gotcha.Autotee.C67_output_after_close_refuted",
    "Gotcha.Autotee.C67_close_twice_refuted",
    "Gotcha.Autotee.C67_other_calls_after_close"
   ],
   "note": "Refutation, and what still works after closing."
  },
  {
   "property": "C68",
   "status": "proved",
   "theorems": [
    "Gotcha.C68_wrap_settles_libraries",
    "Gotcha.C68_what_was_missed_stays_missed",
    "Gotcha.C68_dlopen_settles_libraries",
    "Gotcha.C68_late_library_stays_unwrapped"
   ],
   "note": "For all histories; C12, C14 and C16 follow from it."
  },
  {
   "property": "C69",
   "status": "proved",
   "theorems": [
    "Gotcha.Props.C69_read_word",
    "Gotcha.Props.C69_read_back",
    "Gotcha.Props.C69_size_zero",
    "Gotcha.Props.C69_overrun"
   ],
   "note": "For every word length and buffer size, size zero included."
  },
  {
   "property": "C70",
   "status": "proved",
   "theorems": [
    "Gotcha.Props.C70_dynamic_section",
    "Gotcha.Props.C70_no_dynamic_section",
    "Gotcha.Props.C70_zero_entry_size"
   ],
   "note": ""
  },
  {
   "property": "C71",
   "status": "proved",
   "theorems": [
    "Gotcha.Props.C71_read_hex",
    "Gotcha.Props.C71_unterminated",
    "Gotcha.Props.C71_read_back"
   ],
   "note": ""
  },
  {
   "property": "C72",
   "status": "proved",
   "theorems": [
    "Gotcha.Props.C72_read_line",
    "Gotcha.Props.C72_read_error",
    "Gotcha.Props.C72_whole_file"
   ],
   "note": ""
  },
  {
   "property": "C73",
   "status": "proved",
   "theorems": [
    "Gotcha.C73_start_skips_high_priority",
    "Gotcha.C73_all_skipped",
    "Gotcha.C73_start_call"
   ],
   "note": "Exact set of wrappers that run at start-up. The wish that all of them run is false of the code for priorities above GOTCHA's own."
  },
  {
   "property": "C74",
   "status": "proved",
   "theorems": [
    "Gotcha.C74_unexported_main_never_starts"
   ],
   "note": "A refutation of the wish that wrapping main never breaks a program, for every process and history in which main stays unresolved."
  },
  {
   "property": "C75",
   "status": "proved",
   "theorems": [
    "Gotcha.Props.C75_complete",
    "Gotcha.Props.C75_internal",
    "Gotcha.Props.C75_dlopen",
    "Gotcha.Props.C75_enough",
    "Gotcha.Props.C75_enough_others",
    "Gotcha.Props.C75_priorities"
   ],
   "note": "Tables binding main are excluded: the two inner gotcha_wrap calls of the main block ignore GOTCHA_INTERNAL."
  },
  {
   "property": "C76",
   "status": "proved",
   "theorems": [
    "Gotcha.Props.C76_wrap_crash",
    "Gotcha.Props.C76_set_priority_crash",
    "Gotcha.Props.C76_tool_reported"
   ],
   "note": "Refutation, for all states of the stated kind; the one reported failure is proved too."
  },
  {
   "property": "C77",
   "status": "proved",
   "theorems": [
    "Gotcha.Props.C77_init_lost",
    "Gotcha.Props.C77_refuted"
   ],
   "note": "Refutation: general for initialisation, with a concrete process for the successful gotcha_wrap."
  },
  {
   "property": "C78",
   "status": "proved",
   "theorems": [
    "Gotcha.C78_generation_wraps_refuted"
   ],
   "note": "Refutation, for every process and history of the stated kind. The engine's own allocations are assumed to succeed; the calls need some hundred gigabytes."
  },
  {
   "property": "C79",
   "status": "proved",
   "theorems": [
    "Gotcha.C79_table_kept_by_reference",
    "Gotcha.C79_tool_name_kept_by_reference"
   ],
   "note": "Refutation, for every process and history; overwritten function names (the keys of GOTCHA's hash tables) are not covered."
  },
  {
   "property": "C80",
   "status": "proved",
   "theorems": [
    "Gotcha.C80_dlopen_is_atomic"
   ],
   "note": "Stores of dlopen_wrapper from the end of the real dlopen on; the loader's own stores count as one step. Slots of old objects whose function is still pending are excluded: they lead to a wrapper that cannot go on already before (C24)."
  },
  {
   "property": "C81",
   "status": "proved",
   "theorems": [
    "Gotcha.C81_wrap",
    "Gotcha.C81_symbol_refuted",
    "Gotcha.C81_priority",
    "Gotcha.C81_dlopen"
   ],
   "note": "The exact report is stated for tables without \"main\" after the first API call; what is reported in the remaining cases is characterised by callLog (wrap_callLog) over the abstract state. Messages of levels 2 and 3: C105. The refutation covers all cases."
  },
  {
   "property": "C82",
   "status": "proved",
   "theorems": [
    "Gotcha.C82_silent",
    "Gotcha.C82_prints",
    "Gotcha.C82_null_refuted",
    "Gotcha.C82_prints_all",
    "Gotcha.C82_wrap_null_refuted"
   ],
   "note": "printf of the build without libc; with libc the messages are libc's business. Lines longer than 4096 characters: C46."
  },
  {
   "property": "C83",
   "status": "proved",
   "theorems": [
    "Gotcha.C83_pointer_keeps_its_wrappers",
    "Gotcha.C83_later_outer_tool_refuted"
   ],
   "note": "The slot belongs to a library loaded when the pointer is read; a pointer taken before wrapping is the real function itself and is not wrapped, as documented."
  },
  {
   "property": "C84",
   "status": "proved",
   "theorems": [
    "Gotcha.C84_probe_finds_a_missing_function",
    "Gotcha.C84_found_means_callable_refuted",
    "Gotcha.C84_probe_compares_an_indeterminate_pointer"
   ],
   "note": "Refutation, for every process and history of the stated kind."
  },
  {
   "property": "C85",
   "status": "proved",
   "theorems": [
    "Gotcha.C85_next_ignores_the_caller",
    "Gotcha.C85_next_otherwise_bypasses",
    "Gotcha.C85_next_leads_past_the_caller_refuted"
   ],
   "note": "Refutation: the general behaviour for every caller, and a concrete process in which the result leads back to the caller. The real dlsym and dlopen are arbitrary functions."
  },
  {
   "property": "C86",
   "status": "proved",
   "theorems": [
    "Gotcha.C86_place_of_gotchas_wrapper",
    "Gotcha.C86_gotcha_is_innermost_refuted"
   ],
   "note": "Refutation with the exact place of GOTCHA's wrapper for settled priorities; __libc_start_main and main are covered by C13 and C73."
  },
  {
   "property": "C87",
   "status": "proved",
   "theorems": [
    "Gotcha.C87_admitted_libraries_are_intercepted",
    "Gotcha.C87_filter_by_name_splits"
   ],
   "note": "Generalises C01 and C02 to part of the process; positional filters (gotcha_only_filter_last) let no library pass in this sense. The generation bound, slot consistency and the condition on tables with main remain global."
  },
  {
   "property": "C88",
   "status": "proved",
   "theorems": [
    "Gotcha.C88_refused_mprotect_crashes_or_changes_nothing",
    "Gotcha.C88_returned_means_intercepted",
    "Gotcha.C88_read_only_slot_crashes"
   ],
   "note": "The error message of mark_got_writable says that calls to wrapped functions may fail; what happens is a crash. An mprotect call is all or nothing in the model. The other theorems about histories assume only that the slots themselves are writable or covered by a successful mprotect."
  },
  {
   "property": "C89",
   "status": "proved",
   "theorems": [
    "Gotcha.C89_overlapping_calls",
    "Gotcha.C89_wrapped_before",
    "Gotcha.C89_mixture"
   ],
   "note": "C89_mixture is a witness that the conclusion cannot be strengthened to 'the stack at one moment'. The operations themselves follow each other; two threads inside gotcha_wrap at the same time are the subject of C93."
  },
  {
   "property": "C90",
   "status": "proved",
   "theorems": [
    "Gotcha.C90_events_in_a_row",
    "Gotcha.C90_calm_constructors",
    "Gotcha.C90_constructor_wrap_escapes",
    "Gotcha.C90_others_stay_intercepted",
    "Gotcha.C90_constructor_wrap_refuted"
   ],
   "note": "The expectation that a dlopened object is intercepted whatever its constructors do is refuted (C90_constructor_wrap_refuted) and the opposite proved for every process (C90_constructor_wrap_escapes); C90_calm_constructors is what holds. The loader is assumed to relocate all new objects before it runs the first constructor."
  },
  {
   "property": "C91",
   "status": "proved",
   "theorems": [
    "Gotcha.C91_at_most_one",
    "Gotcha.C91_calls",
    "Gotcha.C91_references_accumulate",
    "Gotcha.C91_unbounded",
    "Gotcha.C91_dlsym_takes_no_reference_refuted"
   ],
   "note": "That dlsym takes no references is refuted (C91_dlsym_takes_no_reference_refuted, C91_unbounded); the references taken are counted exactly (C91_references_accumulate)."
  },
  {
   "property": "C92",
   "status": "proved",
   "theorems": [
    "Gotcha.C92_other_handle",
    "Gotcha.C92_next",
    "Gotcha.C92_wrapper_with_error",
    "Gotcha.C92_error_means_null_refuted",
    "Gotcha.C92_null_means_error_refuted"
   ],
   "note": "Both directions of the usual expectation are refuted (C92_error_means_null_refuted, C92_null_means_error_refuted); the cases where it holds and the exact deviation are proved. Assumed of the real functions: dlsym reports an error exactly when it returns NULL, and every call replaces the error left by the one before."
  },
  {
   "property": "C93",
   "status": "proved",
   "theorems": [
    "Gotcha.C93_undisturbed",
    "Gotcha.C93_undisturbed_dlopen",
    "Gotcha.C93_some_serial_order",
    "Gotcha.C93_no_registration_lost",
    "Gotcha.C93_update_lost",
    "Gotcha.C93_success_means_intercepted_refuted"
   ],
   "note": "That success means interception when calls overlap is refuted (C93_success_means_intercepted_refuted), the general situation in which it fails is C93_update_lost; registrations are never lost (C93_some_serial_order, C93_no_registration_lost). Threads are interleaved between the parts of gotcha_wrap only."
  },
  {
   "property": "C94",
   "status": "proved",
   "theorems": [
    "Gotcha.C94_new_object_missed",
    "Gotcha.C94_wrap_beside_dlopen_refuted",
    "Gotcha.C94_dlopen_beside_wrap_refuted"
   ],
   "note": "That a gotcha_wrap beside a dlopen intercepts its functions, and that a dlopen beside a gotcha_wrap intercepts the functions wrapped before, are refuted (C94_wrap_beside_dlopen_refuted, C94_dlopen_beside_wrap_refuted); the general situations are C93_update_lost and C94_new_object_missed. Threads are interleaved between the parts of the functions only."
  },
  {
   "property": "C95",
   "status": "proved",
   "theorems": [
    "Gotcha.C95_undisturbed",
    "Gotcha.C95_crash",
    "Gotcha.C95_forgotten",
    "Gotcha.C95_first_calls_refuted"
   ],
   "note": "That functions wrapped with success are intercepted in objects loaded later is refuted for overlapping first calls (C95_first_calls_refuted); the general situation is C95_forgotten. Threads are interleaved between the parts of gotcha_init and gotcha_wrap only."
  },
  {
   "property": "C96",
   "status": "proved",
   "theorems": [
    "Gotcha.C96_no_bad_free",
    "Gotcha.C96_accounted",
    "Gotcha.C96_kept",
    "Gotcha.C96_reopen",
    "Gotcha.C96_agrees",
    "Gotcha.C96_dlclose_refuted"
   ],
   "note": "That memory returns to what it was after dlopen and dlclose is refuted (C96_dlclose_refuted). Block sizes are counted in elements, not bytes."
  },
  {
   "property": "C97",
   "status": "proved",
   "theorems": [
    "Gotcha.C97_size",
    "Gotcha.C97_exact",
    "Gotcha.C97_empty",
    "Gotcha.C97_negative",
    "Gotcha.C97_overflow",
    "Gotcha.C97_negative_refuted"
   ],
   "note": "That a negative count is refused on every page size is refuted (C97_negative_refuted). Allocations outside add_binding_to_tool are taken to succeed (Model/Oom covers them)."
  },
  {
   "property": "C98",
   "status": "proved",
   "theorems": [
    "Gotcha.C98_up_to_date",
    "Gotcha.C98_stale",
    "Gotcha.C98_no_registration_lost_refuted"
   ],
   "note": "That no registration is lost under arbitrary interleavings at this granularity is refuted (C98_no_registration_lost_refuted)."
  },
  {
   "property": "C99",
   "status": "proved",
   "theorems": [
    "Gotcha.C99_wrap_reaches_what_the_filter_lets_through",
    "Gotcha.C99_first_wrap",
    "Gotcha.C99_dlopen_reaches_what_the_filter_lets_through",
    "Gotcha.C99_only_last_is_written",
    "Gotcha.C99_only_last_and_dlopen",
    "Gotcha.C99_only_last_takes_the_dlopened_object_refuted"
   ],
   "note": "That gotcha_only_filter_last selects the dlopened object is refuted (C99_only_last_takes_the_dlopened_object_refuted)."
  },
  {
   "property": "C100",
   "status": "proved",
   "theorems": [
    "Gotcha.C100_calls_follow_the_story",
    "Gotcha.C100_events_outside_the_story",
    "Gotcha.C100_nothing_else_matters",
    "Gotcha.C100_order_of_tools_does_not_matter",
    "Gotcha.C100_ties_depend_on_the_order_refuted"
   ],
   "note": "That the order of tools never matters is refuted for equal priorities (C100_ties_depend_on_the_order_refuted)."
  },
  {
   "property": "C101",
   "status": "proved",
   "theorems": [
    "Gotcha.C101_calls_reach_what_the_loader_binds",
    "Gotcha.C101_wrapping_is_transparent",
    "Gotcha.C101_calls_reach_the_highest_version",
    "Gotcha.C101_versions_refuted",
    "Gotcha.C101_ifuncs_refuted"
   ],
   "note": "Transparency without the conditions is refuted twice (C101_versions_refuted, C101_ifuncs_refuted); C101_calls_reach_the_highest_version says in general where calls end. The loader is a specification: search order is the link map, no RTLD_LOCAL, RTLD_DEEPBIND or -Bsymbolic."
  },
  {
   "property": "C102",
   "status": "proved",
   "theorems": [
    "Gotcha.C102_programs_see_the_stacks",
    "Gotcha.C102_wrappers_compose",
    "Gotcha.C102_minimal_example",
    "Gotcha.C102_minimal_null_wrappee",
    "Gotcha.C102_minimal_main"
   ],
   "note": "One thread. The agreement is for runs that end (programs are big-step). Slots of functions nobody wraps are covered for objects that were loaded at the start and stay."
  },
  {
   "property": "C103",
   "status": "proved",
   "theorems": [
    "Gotcha.C103_answers_of_one_environment",
    "Gotcha.C103_environment_of_the_vector",
    "Gotcha.C103_only_the_vdso_is_passed_over",
    "Gotcha.C103_lookalike_refuted"
   ],
   "note": "Without the uniqueness of the offset the claim about calls is refuted (C103_lookalike_refuted)."
  },
  {
   "property": "C104",
   "status": "proved",
   "theorems": [
    "Gotcha.Props.C104_event",
    "Gotcha.Props.C104_only_library_pages",
    "Gotcha.Props.C104_never_restored",
    "Gotcha.Props.C104_patched_words_stay_writable",
    "Gotcha.Props.C104_write_bit",
    "Gotcha.Props.C104_writable_and_executable"
   ],
   "note": "The wishes that RELRO is restored and that no page is writable and executable are refuted: C104_patched_words_stay_writable, C104_writable_and_executable. Excluded by Sized: empty RELRO segments and tables that wrap around the address space."
  },
  {
   "property": "C105",
   "status": "proved",
   "theorems": [
    "Gotcha.C105_silent",
    "Gotcha.C105_level_one",
    "Gotcha.C105_record",
    "Gotcha.C105_dlsym",
    "Gotcha.C105_history",
    "Gotcha.C105_history_total",
    "Gotcha.C105_changed_word",
    "Gotcha.C105_changed_pointer",
    "Gotcha.C105_lookups"
   ],
   "note": "About the messages with their arguments; their text is C82 for level 1. Messages printed before a fault and the reports after failed allocations are not modelled."
  },
  {
   "property": "C106",
   "status": "proved",
   "theorems": [
    "Gotcha.C106_one_store_at_a_time",
    "Gotcha.C106_insertion_in_order",
    "Gotcha.C106_dlopen_in_order",
    "Gotcha.C106_overlapping_in_order",
    "Gotcha.C106_reordered_refuted"
   ],
   "note": "C106_one_store_at_a_time; C106_insertion_in_order, C106_dlopen_in_order and C106_overlapping_in_order carry C25, C80 and C89 over to store buffers and to release/acquire; C106_reordered_refuted shows the failure with plain stores on processors that reorder them. The callers' own loads are taken in program order."
  },
  {
   "property": "C107",
   "status": "proved",
   "theorems": [
    "Gotcha.C107_wrap_has_one_moment",
    "Gotcha.C107_dlopen_has_one_moment",
    "Gotcha.C107_not_all_at_once"
   ],
   "note": "Same conditions as C25 and C80. C107_not_all_at_once is the refutation for several call sites."
  },
  {
   "property": "C108",
   "status": "proved",
   "theorems": [
    "Gotcha.C108_prints",
    "Gotcha.C108_prints_log",
    "Gotcha.C108_unambiguous",
    "Gotcha.C108_output_tells",
    "Gotcha.C108_one_line",
    "Gotcha.C108_one_line_refuted",
    "Gotcha.C108_spaces_refuted"
   ],
   "note": "C108_unambiguous is for names without spaces and line breaks and messages without NULL strings (C82). C108_one_line_refuted and C108_spaces_refuted are the refutations."
  },
  {
   "property": "C109",
   "status": "proved",
   "theorems": [
    "Gotcha.C109_to_the_end",
    "Gotcha.C109_lockstep",
    "Gotcha.C109_never_ends",
    "Gotcha.C109_and_back"
   ],
   "note": "The stacks are those of C102. Each event is one step here."
  },
  {
   "property": "C110",
   "status": "proved",
   "theorems": [
    "Gotcha.C110_never_reads_slots",
    "Gotcha.C110_lazy_binding_makes_no_difference",
    "Gotcha.C110_calls_run_the_whole_stack",
    "Gotcha.C110_programs",
    "Gotcha.C110_overlapping_binding_refuted"
   ],
   "note": "The resolution of a stub is fixed; binding happens between events (within one: the refutation)."
  },
  {
   "property": "C111",
   "status": "proved",
   "theorems": [
    "Gotcha.Filters.C111_filters",
    "Gotcha.Filters.C111_filters_without_libc",
    "Gotcha.Filters.C111_model_filters",
    "Gotcha.Filters.C111_builds_agree",
    "Gotcha.Filters.C111_empty_filter_refuted",
    "Gotcha.Filters.C111_name_is_kept_refuted",
    "Gotcha.Filters.C111_null_function"
   ],
   "note": "libc's strstr by its specification, gotcha_strstr by its code. A client's own filter function is a total function of memory and link map."
  },
  {
   "property": "C112",
   "status": "proved",
   "theorems": [
    "Gotcha.C112_pointers_compute",
    "Gotcha.C112_dlsym_like_a_slot",
    "Gotcha.C112_dlsym_past_the_wrappers",
    "Gotcha.C112_dlsym_unwrapped",
    "Gotcha.C112_early_pointer_refuted"
   ],
   "note": "In a program dlsym is GOTCHA's once GOTCHA has been used, without looking at the slot it is called through."
  },
  {
   "property": "C113",
   "status": "proved",
   "theorems": [
    "Gotcha.C113_stack",
    "Gotcha.C113_stress",
    "Gotcha.C113_function_ptr",
    "Gotcha.C113_priority",
    "Gotcha.C113_dispatcher",
    "Gotcha.C113_dlopen"
   ],
   "note": "Of what the programs write only standard output is kept; init functions are called in place; a failing dlopen is left out. The tests filter (C114), symver and wrap_main (C116), hammer (C117) and unit (C118) have properties of their own; rogot: C120."
  },
  {
   "property": "C114",
   "status": "proved",
   "theorems": [
    "Gotcha.C114_kept_out_computes",
    "Gotcha.C114_kept_out_unwrapped",
    "Gotcha.C114_filter_test"
   ],
   "note": "Of what test/filter writes nothing is kept (it goes to standard error). Slots of other objects at the same address are excluded by hypothesis."
  },
  {
   "property": "C115",
   "status": "proved",
   "theorems": [
    "Gotcha.C115_interrupted_calls_write_no_more",
    "Gotcha.C115_handler_defeats_wrap"
   ],
   "note": "Interruptions between the parts of Model/Threads only. That registrations are not lost and stacks stay sound under any interleaving, and so also here, is C93."
  },
  {
   "property": "C116",
   "status": "proved",
   "theorems": [
    "Gotcha.C116_program_start",
    "Gotcha.C116_wrap_main",
    "Gotcha.C116_symver"
   ],
   "note": "__libc_start_main itself is only the call of the function it is given. The status passed to exit stands as its result. wrap_main is stated for a first tool whose priority is not higher than GOTCHA's own (as in the test)."
  },
  {
   "property": "C117",
   "status": "proved",
   "theorems": [
    "Gotcha.C117_hammer"
   ],
   "note": "Integers without overflow. dladdr finds the names. What the program prints is left out."
  },
  {
   "property": "C118",
   "status": "proved",
   "theorems": [
    "Gotcha.Unit.C118_hash_grow_test",
    "Gotcha.Unit.C118_hash_grow_test_fails"
   ],
   "note": "Allocation succeeds; int overflow of the loop counter is left out."
  },
  {
   "property": "C119",
   "status": "proved",
   "theorems": [
    "Gotcha.Unit.C119_heap_test",
    "Gotcha.Unit.C119_heap_test_passes"
   ],
   "note": "The ints i + j of the test do not overflow below 2^30 blocks."
  },
  {
   "property": "C120",
   "status": "proved",
   "theorems": [
    "Gotcha.Autotee.C120_rogot",
    "Gotcha.Autotee.C120_example",
    "Gotcha.Autotee.C120_init_fails"
   ],
   "note": "That the calls between reach the wrappers, and that the wrapped functions are the C library's, is C116 and the like; here it is the model of C65."
  },
  {
   "property": "C121",
   "status": "proved",
   "theorems": [
    "Gotcha.Spec.C121_fixed_for_good",
    "Gotcha.Spec.C121_loaded_while_definer_stays",
    "Gotcha.Spec.C121_dangling",
    "Gotcha.Spec.C121_transparent_iff",
    "Gotcha.Spec.C121_not_both",
    "Gotcha.Spec.C121_wrappers_for_good",
    "Gotcha.Spec.C121_example",
    "Gotcha.Spec.C121_own_definition_refuted",
    "Gotcha.Spec.C121_ends_in_loaded_code_refuted",
    "Gotcha.Spec.C121_unloaded_tool_refuted"
   ],
   "note": "What the loader had bound a caller to is the word in its GOT slot; slots still waiting for lazy binding are the subject of C110. The claims one would wish for are refuted with two plugins that both define bar, and with a tool in a library of its own."
  },
  {
   "property": "C122",
   "status": "proved",
   "theorems": [
    "Gotcha.Tools.C122_unknown_key",
    "Gotcha.Tools.C122_get",
    "Gotcha.Tools.C122_remove",
    "Gotcha.Tools.C122_remove_missing",
    "Gotcha.Tools.C122_remove_all",
    "Gotcha.Tools.C122_symbol_wrap_test",
    "Gotcha.Tools.C122_after_history",
    "Gotcha.Tools.C122_remove_stale_refuted",
    "Gotcha.Tables.C122_tables"
   ],
   "note": "Only gotcha_set_priority removes tools in the library, and always one in the list."
  },
  {
   "property": "C123",
   "status": "proved",
   "theorems": [
    "Gotcha.C123_second_process_ok",
    "Gotcha.C123_second_copy_takes_over",
    "Gotcha.C123_first_copy_misses_dlopen",
    "Gotcha.C123_first_copy_keeps_the_rest",
    "Gotcha.C123_later_libraries_are_missed",
    "Gotcha.C123_example_both",
    "Gotcha.C123_example_split",
    "Gotcha.C123_both_run_refuted"
   ],
   "note": "The two histories follow one another; C124 has them interleaved."
  },
  {
   "property": "C124",
   "status": "proved",
   "theorems": [
    "Gotcha.C124_copies_run",
    "Gotcha.C124_stacks_survive",
    "Gotcha.C124_copies_do_not_interfere",
    "Gotcha.C124_words_never_admitted",
    "Gotcha.C124_filters_by_name_keep_copies_apart",
    "Gotcha.C124_example"
   ],
   "note": "For a copy, an object loaded by a dlopen that another copy sees is loaded behind its back; whole calls are interleaved, threads inside calls are not."
  },
  {
   "property": "C125",
   "status": "proved",
   "theorems": [
    "Gotcha.C125_undisturbed",
    "Gotcha.C125_use_after_free",
    "Gotcha.C125_reuse_skips",
    "Gotcha.C125_no_stale_pointer",
    "Gotcha.C125_all_visited",
    "Gotcha.C125_walk_safe",
    "Gotcha.C125_example"
   ],
   "note": "One walk; the other threads' loader activity comes in before a library is updated or before l_next is read, not inside update_library_got."
  },
  {
   "property": "C126",
   "status": "proved",
   "theorems": [
    "Gotcha.C126_no_fault",
    "Gotcha.C126_calls_run_the_whole_stack",
    "Gotcha.C126_wired",
    "Gotcha.C126_no_stale_records",
    "Gotcha.C126_same_results",
    "Gotcha.C126_repairs_C15"
   ],
   "note": "The engine never calls remove_library; the call at dlclose is the repair whose effect is proved. The function itself is the code's."
  },
  {
   "property": "C127",
   "status": "proved",
   "theorems": [
    "Gotcha.C127_distribution",
    "Gotcha.C127_split",
    "Gotcha.C127_rearranged",
    "Gotcha.C127_main_refuted",
    "Gotcha.C127_same_function_refuted"
   ],
   "note": "The conditions are needed: C127_main_refuted, C127_same_function_refuted. The generation counter must not wrap around with the larger number of calls either."
  },
  {
   "property": "C128",
   "status": "proved",
   "theorems": [
    "Gotcha.C128_repair",
    "Gotcha.C128_one_call_refuted"
   ],
   "note": "Threads stop only between the parts into which Model/Threads divides the functions; no table names main and the generation counter does not wrap around."
  },
  {
   "property": "C129",
   "status": "proved",
   "theorems": [
    "Gotcha.C129_self_healing",
    "Gotcha.C129_everything_back",
    "Gotcha.C129_repairs_C15",
    "Gotcha.C129_one_call_refuted",
    "Gotcha.C129_new_function_refuted"
   ],
   "note": "Libraries that come back have writable slots (otherwise writing them can crash, C15); each GOT slot belongs to one function, the first table with main contains nothing else, and the generation counter does not wrap around."
  },
  {
   "property": "C130",
   "status": "proved",
   "theorems": [
    "Gotcha.C130_hash_library",
    "Gotcha.C130_no_leak",
    "Gotcha.C130_gone",
    "Gotcha.C130_no_fault",
    "Gotcha.C130_create_twice_refuted"
   ],
   "note": "keycmp compares for equality, pages have room for an entry, initial sizes are not 0; the client goes by the return value of create_hashtable. Overflow of sizes is not modelled."
  },
  {
   "property": "C131",
   "status": "proved",
   "theorems": [
    "Gotcha.C131_healed",
    "Gotcha.C131_without_wrap_refuted"
   ],
   "note": "clients use one handle per binding; each GOT slot belongs to one function, the first table with \"main\" contains nothing else, and the 32-bit generation counter does not wrap around."
  },
  {
   "property": "C132",
   "status": "proved",
   "theorems": [
    "Gotcha.C132_careful",
    "Gotcha.C132_everything",
    "Gotcha.C132_careless_refuted"
   ],
   "note": "for the objects that every filter set lets pass; objects are loaded by dlopen only; clients use one handle per binding; each GOT slot belongs to one function, the first table with \"main\" contains nothing else, the generation counter does not wrap around; objects that come back have writable slots (C15)."
  },
  {
   "property": "C133",
   "status": "proved",
   "theorems": [
    "Gotcha.Sys.C133_system_calls",
    "Gotcha.Sys.C133_determined",
    "Gotcha.Sys.C133_tmpfile_refuted"
   ],
   "note": "syscall is libc's function of that name; that ints go through 64-bit registers is not modelled. The O_TMPFILE case is refuted by C133_tmpfile_refuted."
  },
  {
   "property": "C134",
   "status": "proved",
   "theorems": [
    "Gotcha.Printf.C134_writes",
    "Gotcha.Printf.C134_one_write",
    "Gotcha.Printf.C134_arrives",
    "Gotcha.Printf.C134_return_refuted"
   ],
   "note": "a kernel is the number of bytes it takes of each buffer; that a single write to a file or pipe is atomic is a matter of the kernel. The return value claim is refuted by C134_return_refuted."
  }
 ]
}
