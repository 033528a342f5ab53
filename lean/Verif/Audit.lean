import Verif.Props.Autotee
import Verif.Props.Auxv
import Verif.Props.Bits
import Verif.Props.Careful
import Verif.Props.Compose
import Verif.Props.Copies
import Verif.Props.CopiesDemo
import Verif.Props.Count
import Verif.Props.Ctor
import Verif.Props.Debug
import Verif.Props.DlCalls
import Verif.Props.Dlsym
import Verif.Props.Drop
import Verif.Props.DropDemo
import Verif.Props.Effects
import Verif.Props.Elf
import Verif.Props.FilterProg
import Verif.Props.Filters
import Verif.Props.FirstAdd
import Verif.Props.Forever
import Verif.Props.Frozen
import Verif.Props.Generation
import Verif.Props.Got
import Verif.Props.Hammer
import Verif.Props.Hash
import Verif.Props.HashLib
import Verif.Props.Healed
import Verif.Props.HealedDemo
import Verif.Props.Heap
import Verif.Props.Init
import Verif.Props.Kernel
import Verif.Props.Lazy
import Verif.Props.LibC
import Verif.Props.Log
import Verif.Props.Main
import Verif.Props.Malloc
import Verif.Props.Moment
import Verif.Props.Only
import Verif.Props.Oom
import Verif.Props.Overlap
import Verif.Props.PointerProg
import Verif.Props.Pointers
import Verif.Props.Printf
import Verif.Props.Program
import Verif.Props.Protect
import Verif.Props.Race
import Verif.Props.Reach
import Verif.Props.ReadHex
import Verif.Props.ReadLine
import Verif.Props.ReadWord
import Verif.Props.Records
import Verif.Props.Refute
import Verif.Props.Reload
import Verif.Props.Repair
import Verif.Props.RepairDemo
import Verif.Props.Resolve
import Verif.Props.Rogot
import Verif.Props.Signal
import Verif.Props.Skip
import Verif.Props.Split
import Verif.Props.SplitDemo
import Verif.Props.Stack
import Verif.Props.StartProg
import Verif.Props.Syscall
import Verif.Props.Table
import Verif.Props.Tests
import Verif.Props.Text
import Verif.Props.Threads
import Verif.Props.ThreadsDl
import Verif.Props.ToolApi
import Verif.Props.Tools
import Verif.Props.Trace
import Verif.Props.TraceDl
import Verif.Props.Transparent
import Verif.Props.Twin
import Verif.Props.TwinDemo
import Verif.Props.UnitHash
import Verif.Props.UnitHeap
import Verif.Props.Utils
import Verif.Props.Version
import Verif.Props.Walk
import Verif.Props.WalkDemo
import Verif.Props.Weak
import Verif.Props.Writes
/-
Axioms of every property theorem (generated by tools/manifest.py).
-/
#print axioms Gotcha.C01_wired
#print axioms Gotcha.C01_calls_run_the_whole_stack
#print axioms Gotcha.C01_client_functions
#print axioms Gotcha.C02_priority_order
#print axioms Gotcha.C02_set_priority_does_not_reorder
#print axioms Gotcha.C03_equal_priority_first_is_outermost
#print axioms Gotcha.C03_documented_fifo_refuted
#print axioms Gotcha.C04_wrappee_is_next
#print axioms Gotcha.C04_no_cycles
#print axioms Gotcha.C05_rewrap_harmless_refuted
#print axioms Gotcha.C05_rewrap_loops_forever
#print axioms Gotcha.C05_rewrapped_calls_never_return
#print axioms Gotcha.C06_real_is_first_definition
#print axioms Gotcha.C07_return_code
#print axioms Gotcha.C08_pending_resolved_by_dlopen
#print axioms Gotcha.C08_resolved_stays
#print axioms Gotcha.C09_dlopen_rewires_everything
#print axioms Gotcha.C10_only_slots_of_wrapped_functions
#print axioms Gotcha.C11_words_never_admitted
#print axioms Gotcha.C11_rejected_library_untouched
#print axioms Gotcha.C11_filter_by_name
#print axioms Gotcha.C12_lifted_filter_refuted
#print axioms Gotcha.C12_lifted_filter_comes_too_late
#print axioms Gotcha.C13_main_through_libc_start_main
#print axioms Gotcha.C14_main_with_others_refuted
#print axioms Gotcha.C14_main_hides_the_rest_of_the_table
#print axioms Gotcha.C15_dlclose_and_dlopen_refuted
#print axioms Gotcha.C15_new_object_is_intercepted
#print axioms Gotcha.C15_reloaded_library_is_not_intercepted
#print axioms Gotcha.C16_silent_load_refuted
#print axioms Gotcha.C16_silently_loaded_stays_unwrapped
#print axioms Gotcha.C17_dlsym_one_tool
#print axioms Gotcha.C17_two_tools_bypassed
#print axioms Gotcha.C17_outermost_wrapper_refuted
#print axioms Gotcha.C18_dlsym_transparent
#print axioms Gotcha.C19_rtld_next
#print axioms Gotcha.C19_unknown_caller_exits
#print axioms Gotcha.C20_set_then_get
#print axioms Gotcha.C20_default
#print axioms Gotcha.C20_unknown
#print axioms Gotcha.C21_tool_list
#print axioms Gotcha.C22_attribution
#print axioms Gotcha.C23_reload_crash_refuted
#print axioms Gotcha.C23_reload_crashes
#print axioms Gotcha.C23_no_fault
#print axioms Gotcha.C23_only_dlopen_faults
#print axioms Gotcha.C23_no_fault_without_dlopen
#print axioms Gotcha.C24_indeterminate_only_when_unresolved
#print axioms Gotcha.C24_which_handle_is_indeterminate
#print axioms Gotcha.C24_wrappee_always_set_refuted
#print axioms Gotcha.C25_insertion_is_atomic
#print axioms Gotcha.C25_rewrap_not_atomic
#print axioms Gotcha.C26_skipping_in_dlopen_loses_nothing
#print axioms Gotcha.C26_wrap_skips_no_library
#print axioms Gotcha.C27_records_belong_to_their_library
#print axioms Gotcha.C27_collision_refuted
#print axioms Gotcha.Props.C27_hash
#print axioms Gotcha.Props.C27_records_in_general
#print axioms Gotcha.Props.C27_collision_shares
#print axioms Gotcha.Props.C27_records_in_any_history
#print axioms Gotcha.C28_table_is_map
#print axioms Gotcha.C28_strhash
#print axioms Gotcha.C29_count_and_load
#print axioms Gotcha.C29_add_stores
#print axioms Gotcha.C30_grow_preserves
#print axioms Gotcha.C31_foreach_visits_once
#print axioms Gotcha.C32_first_addition_wins
#print axioms Gotcha.C32_second_add_does_not_replace
#print axioms Gotcha.C32_visible_entry_depends_on_other_keys
#print axioms Gotcha.C32_table_is_bag
#print axioms Gotcha.Props.C33_no_fault
#print axioms Gotcha.Props.C33_apart
#print axioms Gotcha.Props.C33_malloc
#print axioms Gotcha.Props.C34_tiling
#print axioms Gotcha.Props.C35_realloc
#print axioms Gotcha.Props.C35_others_kept
#print axioms Gotcha.Props.C36_best_fit
#print axioms Gotcha.Props.C36_mmap_last
#print axioms Gotcha.Props.C36_mmap_length
#print axioms Gotcha.Props.C37_rounds_to_zero
#print axioms Gotcha.Props.C37_huge_size_accepted
#print axioms Gotcha.Props.C37_negative_difference
#print axioms Gotcha.Props.C37_area
#print axioms Gotcha.Props.C37_writes_before_area
#print axioms Gotcha.Props.C38_writes_harmless
#print axioms Gotcha.Props.C38_headers_kept
#print axioms Gotcha.LibC.C39_strcmp
#print axioms Gotcha.LibC.C39_strncmp
#print axioms Gotcha.LibC.C39_strncmp_strings
#print axioms Gotcha.LibC.C39_not_an_ordering
#print axioms Gotcha.LibC.C40_strstr_result
#print axioms Gotcha.LibC.C40_strstr_found
#print axioms Gotcha.LibC.C40_pointer_refuted
#print axioms Gotcha.LibC.C41_strlen
#print axioms Gotcha.LibC.C41_strnlen
#print axioms Gotcha.LibC.C41_strnlen_overread
#print axioms Gotcha.LibC.C41_strnlen_unterminated
#print axioms Gotcha.LibC.C42_getenv
#print axioms Gotcha.LibC.C43_atoi
#print axioms Gotcha.LibC.C43_atoi_overflow
#print axioms Gotcha.LibC.C43_atoi_wrap
#print axioms Gotcha.Printf.C44_decimal
#print axioms Gotcha.Printf.C44_hex
#print axioms Gotcha.Printf.C44_any_size
#print axioms Gotcha.Printf.C44_signed
#print axioms Gotcha.Printf.C44_negative_any_size
#print axioms Gotcha.Printf.C44_signed_min_refuted
#print axioms Gotcha.Printf.C44_unique
#print axioms Gotcha.Printf.C45_printf
#print axioms Gotcha.Printf.C45_return
#print axioms Gotcha.Printf.C46_exact
#print axioms Gotcha.Printf.C46_long_refuted
#print axioms Gotcha.LibC.C47_memcpy
#print axioms Gotcha.LibC.C47_memcpy_fault
#print axioms Gotcha.LibC.C47_memset
#print axioms Gotcha.LibC.C48_strncat
#print axioms Gotcha.LibC.C48_overwrite_refuted
#print axioms Gotcha.LibC.C48_overread_refuted
#print axioms Gotcha.LibC.C48_overrun_refuted
#print axioms Gotcha.Props.C49_gnu_lookup
#print axioms Gotcha.Props.C49_gnu_missed
#print axioms Gotcha.Props.C49_gnu_lookup_ascii
#print axioms Gotcha.Props.C49_non_ascii_missed
#print axioms Gotcha.Props.C49_non_ascii_refuted
#print axioms Gotcha.Props.C49_exported
#print axioms Gotcha.Props.C49_exported_non_ascii
#print axioms Gotcha.Props.C50_sysv_lookup
#print axioms Gotcha.Props.C50_exported
#print axioms Gotcha.Props.C51_gnu_reads
#print axioms Gotcha.Props.C51_sysv_reads
#print axioms Gotcha.Props.C51_exported_reads
#print axioms Gotcha.Props.C52_rela_visited
#print axioms Gotcha.Props.C52_rel_visited
#print axioms Gotcha.Props.C52_no_pltrel_visits_nothing
#print axioms Gotcha.Props.C52_no_pltrel_refuted
#print axioms Gotcha.Props.C53_aligned
#print axioms Gotcha.Props.C53_covers_got
#print axioms Gotcha.Props.C53_covers_relro
#print axioms Gotcha.Props.C53_nothing_else
#print axioms Gotcha.Props.C53_library
#print axioms Gotcha.Props.C53_no_pltgot
#print axioms Gotcha.Props.C54_region_is_its_own
#print axioms Gotcha.Props.C54_none_iff
#print axioms Gotcha.Props.C54_own_segment
#print axioms Gotcha.Props.C55_vector
#print axioms Gotcha.Props.C55_pagesize
#print axioms Gotcha.Props.C55_errors
#print axioms Gotcha.Props.C55_once
#print axioms Gotcha.Props.C55_unterminated
#print axioms Gotcha.Props.C56_stable
#print axioms Gotcha.Props.C56_by_name
#print axioms Gotcha.Props.C56_by_auxv
#print axioms Gotcha.Props.C56_by_maps
#print axioms Gotcha.Props.C57_line
#print axioms Gotcha.Props.C57_file
#print axioms Gotcha.Props.C58_monotone
#print axioms Gotcha.Props.C58_components
#print axioms Gotcha.Props.C58_bounds_needed
#print axioms Gotcha.Props.C59_interrupted_line_refuted
#print axioms Gotcha.Props.C60_lookalike_refuted
#print axioms Gotcha.Props.C60_witness
#print axioms Gotcha.Props.C61_short_line_refuted
#print axioms Gotcha.Utils.C62_silent
#print axioms Gotcha.Utils.C62_level
#print axioms Gotcha.Utils.C62_once
#print axioms Gotcha.Utils.C63_library_list
#print axioms Gotcha.Utils.C64_assert_message
#print axioms Gotcha.Autotee.C65_autotee_transparent
#print axioms Gotcha.Autotee.C65_fwrite_result_refuted
#print axioms Gotcha.Autotee.C66_autotee_complete
#print axioms Gotcha.Autotee.C66_init
#print axioms Gotcha.Autotee.C66_short_write_refuted
#print axioms Gotcha.Autotee.C67_output_after_close_refuted
#print axioms Gotcha.Autotee.C67_close_twice_refuted
#print axioms Gotcha.Autotee.C67_other_calls_after_close
#print axioms Gotcha.C68_wrap_settles_libraries
#print axioms Gotcha.C68_what_was_missed_stays_missed
#print axioms Gotcha.C68_dlopen_settles_libraries
#print axioms Gotcha.C68_late_library_stays_unwrapped
#print axioms Gotcha.Props.C69_read_word
#print axioms Gotcha.Props.C69_read_back
#print axioms Gotcha.Props.C69_size_zero
#print axioms Gotcha.Props.C69_overrun
#print axioms Gotcha.Props.C70_dynamic_section
#print axioms Gotcha.Props.C70_no_dynamic_section
#print axioms Gotcha.Props.C70_zero_entry_size
#print axioms Gotcha.Props.C71_read_hex
#print axioms Gotcha.Props.C71_unterminated
#print axioms Gotcha.Props.C71_read_back
#print axioms Gotcha.Props.C72_read_line
#print axioms Gotcha.Props.C72_read_error
#print axioms Gotcha.Props.C72_whole_file
#print axioms Gotcha.C73_start_skips_high_priority
#print axioms Gotcha.C73_all_skipped
#print axioms Gotcha.C73_start_call
#print axioms Gotcha.C74_unexported_main_never_starts
#print axioms Gotcha.Props.C75_complete
#print axioms Gotcha.Props.C75_internal
#print axioms Gotcha.Props.C75_dlopen
#print axioms Gotcha.Props.C75_enough
#print axioms Gotcha.Props.C75_enough_others
#print axioms Gotcha.Props.C75_priorities
#print axioms Gotcha.Props.C76_wrap_crash
#print axioms Gotcha.Props.C76_set_priority_crash
#print axioms Gotcha.Props.C76_tool_reported
#print axioms Gotcha.Props.C77_init_lost
#print axioms Gotcha.Props.C77_refuted
#print axioms Gotcha.C78_generation_wraps_refuted
#print axioms Gotcha.C79_table_kept_by_reference
#print axioms Gotcha.C79_tool_name_kept_by_reference
#print axioms Gotcha.C80_dlopen_is_atomic
#print axioms Gotcha.C81_wrap
#print axioms Gotcha.C81_symbol_refuted
#print axioms Gotcha.C81_priority
#print axioms Gotcha.C81_dlopen
#print axioms Gotcha.C82_silent
#print axioms Gotcha.C82_prints
#print axioms Gotcha.C82_null_refuted
#print axioms Gotcha.C82_prints_all
#print axioms Gotcha.C82_wrap_null_refuted
#print axioms Gotcha.C83_pointer_keeps_its_wrappers
#print axioms Gotcha.C83_later_outer_tool_refuted
#print axioms Gotcha.C84_probe_finds_a_missing_function
#print axioms Gotcha.C84_found_means_callable_refuted
#print axioms Gotcha.C84_probe_compares_an_indeterminate_pointer
#print axioms Gotcha.C85_next_ignores_the_caller
#print axioms Gotcha.C85_next_otherwise_bypasses
#print axioms Gotcha.C85_next_leads_past_the_caller_refuted
#print axioms Gotcha.C86_place_of_gotchas_wrapper
#print axioms Gotcha.C86_gotcha_is_innermost_refuted
#print axioms Gotcha.C87_admitted_libraries_are_intercepted
#print axioms Gotcha.C87_filter_by_name_splits
#print axioms Gotcha.C88_refused_mprotect_crashes_or_changes_nothing
#print axioms Gotcha.C88_returned_means_intercepted
#print axioms Gotcha.C88_read_only_slot_crashes
#print axioms Gotcha.C89_overlapping_calls
#print axioms Gotcha.C89_wrapped_before
#print axioms Gotcha.C89_mixture
#print axioms Gotcha.C90_events_in_a_row
#print axioms Gotcha.C90_calm_constructors
#print axioms Gotcha.C90_constructor_wrap_escapes
#print axioms Gotcha.C90_others_stay_intercepted
#print axioms Gotcha.C90_constructor_wrap_refuted
#print axioms Gotcha.C91_at_most_one
#print axioms Gotcha.C91_calls
#print axioms Gotcha.C91_references_accumulate
#print axioms Gotcha.C91_unbounded
#print axioms Gotcha.C91_dlsym_takes_no_reference_refuted
#print axioms Gotcha.C92_other_handle
#print axioms Gotcha.C92_next
#print axioms Gotcha.C92_wrapper_with_error
#print axioms Gotcha.C92_error_means_null_refuted
#print axioms Gotcha.C92_null_means_error_refuted
#print axioms Gotcha.C93_undisturbed
#print axioms Gotcha.C93_undisturbed_dlopen
#print axioms Gotcha.C93_some_serial_order
#print axioms Gotcha.C93_no_registration_lost
#print axioms Gotcha.C93_update_lost
#print axioms Gotcha.C93_success_means_intercepted_refuted
#print axioms Gotcha.C94_new_object_missed
#print axioms Gotcha.C94_wrap_beside_dlopen_refuted
#print axioms Gotcha.C94_dlopen_beside_wrap_refuted
#print axioms Gotcha.C95_undisturbed
#print axioms Gotcha.C95_crash
#print axioms Gotcha.C95_forgotten
#print axioms Gotcha.C95_first_calls_refuted
#print axioms Gotcha.C96_no_bad_free
#print axioms Gotcha.C96_accounted
#print axioms Gotcha.C96_kept
#print axioms Gotcha.C96_reopen
#print axioms Gotcha.C96_agrees
#print axioms Gotcha.C96_dlclose_refuted
#print axioms Gotcha.C97_size
#print axioms Gotcha.C97_exact
#print axioms Gotcha.C97_empty
#print axioms Gotcha.C97_negative
#print axioms Gotcha.C97_overflow
#print axioms Gotcha.C97_negative_refuted
#print axioms Gotcha.C98_up_to_date
#print axioms Gotcha.C98_stale
#print axioms Gotcha.C98_no_registration_lost_refuted
#print axioms Gotcha.C99_wrap_reaches_what_the_filter_lets_through
#print axioms Gotcha.C99_first_wrap
#print axioms Gotcha.C99_dlopen_reaches_what_the_filter_lets_through
#print axioms Gotcha.C99_only_last_is_written
#print axioms Gotcha.C99_only_last_and_dlopen
#print axioms Gotcha.C99_only_last_takes_the_dlopened_object_refuted
#print axioms Gotcha.C100_calls_follow_the_story
#print axioms Gotcha.C100_events_outside_the_story
#print axioms Gotcha.C100_nothing_else_matters
#print axioms Gotcha.C100_order_of_tools_does_not_matter
#print axioms Gotcha.C100_ties_depend_on_the_order_refuted
#print axioms Gotcha.C101_calls_reach_what_the_loader_binds
#print axioms Gotcha.C101_wrapping_is_transparent
#print axioms Gotcha.C101_calls_reach_the_highest_version
#print axioms Gotcha.C101_versions_refuted
#print axioms Gotcha.C101_ifuncs_refuted
#print axioms Gotcha.C102_programs_see_the_stacks
#print axioms Gotcha.C102_wrappers_compose
#print axioms Gotcha.C102_minimal_example
#print axioms Gotcha.C102_minimal_null_wrappee
#print axioms Gotcha.C102_minimal_main
#print axioms Gotcha.C103_answers_of_one_environment
#print axioms Gotcha.C103_environment_of_the_vector
#print axioms Gotcha.C103_only_the_vdso_is_passed_over
#print axioms Gotcha.C103_lookalike_refuted
#print axioms Gotcha.Props.C104_event
#print axioms Gotcha.Props.C104_only_library_pages
#print axioms Gotcha.Props.C104_never_restored
#print axioms Gotcha.Props.C104_patched_words_stay_writable
#print axioms Gotcha.Props.C104_write_bit
#print axioms Gotcha.Props.C104_writable_and_executable
#print axioms Gotcha.C105_silent
#print axioms Gotcha.C105_level_one
#print axioms Gotcha.C105_record
#print axioms Gotcha.C105_dlsym
#print axioms Gotcha.C105_history
#print axioms Gotcha.C105_history_total
#print axioms Gotcha.C105_changed_word
#print axioms Gotcha.C105_changed_pointer
#print axioms Gotcha.C105_lookups
#print axioms Gotcha.C106_one_store_at_a_time
#print axioms Gotcha.C106_insertion_in_order
#print axioms Gotcha.C106_dlopen_in_order
#print axioms Gotcha.C106_overlapping_in_order
#print axioms Gotcha.C106_reordered_refuted
#print axioms Gotcha.C107_wrap_has_one_moment
#print axioms Gotcha.C107_dlopen_has_one_moment
#print axioms Gotcha.C107_not_all_at_once
#print axioms Gotcha.C108_prints
#print axioms Gotcha.C108_prints_log
#print axioms Gotcha.C108_unambiguous
#print axioms Gotcha.C108_output_tells
#print axioms Gotcha.C108_one_line
#print axioms Gotcha.C108_one_line_refuted
#print axioms Gotcha.C108_spaces_refuted
#print axioms Gotcha.C109_to_the_end
#print axioms Gotcha.C109_lockstep
#print axioms Gotcha.C109_never_ends
#print axioms Gotcha.C109_and_back
#print axioms Gotcha.C110_never_reads_slots
#print axioms Gotcha.C110_lazy_binding_makes_no_difference
#print axioms Gotcha.C110_calls_run_the_whole_stack
#print axioms Gotcha.C110_programs
#print axioms Gotcha.C110_overlapping_binding_refuted
#print axioms Gotcha.Filters.C111_filters
#print axioms Gotcha.Filters.C111_filters_without_libc
#print axioms Gotcha.Filters.C111_model_filters
#print axioms Gotcha.Filters.C111_builds_agree
#print axioms Gotcha.Filters.C111_empty_filter_refuted
#print axioms Gotcha.Filters.C111_name_is_kept_refuted
#print axioms Gotcha.Filters.C111_null_function
#print axioms Gotcha.C112_pointers_compute
#print axioms Gotcha.C112_dlsym_like_a_slot
#print axioms Gotcha.C112_dlsym_past_the_wrappers
#print axioms Gotcha.C112_dlsym_unwrapped
#print axioms Gotcha.C112_early_pointer_refuted
#print axioms Gotcha.C113_stack
#print axioms Gotcha.C113_stress
#print axioms Gotcha.C113_function_ptr
#print axioms Gotcha.C113_priority
#print axioms Gotcha.C113_dispatcher
#print axioms Gotcha.C113_dlopen
#print axioms Gotcha.C114_kept_out_computes
#print axioms Gotcha.C114_kept_out_unwrapped
#print axioms Gotcha.C114_filter_test
#print axioms Gotcha.C115_interrupted_calls_write_no_more
#print axioms Gotcha.C115_handler_defeats_wrap
#print axioms Gotcha.C116_program_start
#print axioms Gotcha.C116_wrap_main
#print axioms Gotcha.C116_symver
#print axioms Gotcha.C117_hammer
#print axioms Gotcha.Unit.C118_hash_grow_test
#print axioms Gotcha.Unit.C118_hash_grow_test_fails
#print axioms Gotcha.Unit.C119_heap_test
#print axioms Gotcha.Unit.C119_heap_test_passes
#print axioms Gotcha.Autotee.C120_rogot
#print axioms Gotcha.Autotee.C120_example
#print axioms Gotcha.Autotee.C120_init_fails
#print axioms Gotcha.Spec.C121_fixed_for_good
#print axioms Gotcha.Spec.C121_loaded_while_definer_stays
#print axioms Gotcha.Spec.C121_dangling
#print axioms Gotcha.Spec.C121_transparent_iff
#print axioms Gotcha.Spec.C121_not_both
#print axioms Gotcha.Spec.C121_wrappers_for_good
#print axioms Gotcha.Spec.C121_example
#print axioms Gotcha.Spec.C121_own_definition_refuted
#print axioms Gotcha.Spec.C121_ends_in_loaded_code_refuted
#print axioms Gotcha.Spec.C121_unloaded_tool_refuted
#print axioms Gotcha.Tools.C122_unknown_key
#print axioms Gotcha.Tools.C122_get
#print axioms Gotcha.Tools.C122_remove
#print axioms Gotcha.Tools.C122_remove_missing
#print axioms Gotcha.Tools.C122_remove_all
#print axioms Gotcha.Tools.C122_symbol_wrap_test
#print axioms Gotcha.Tools.C122_after_history
#print axioms Gotcha.Tools.C122_remove_stale_refuted
#print axioms Gotcha.Tables.C122_tables
#print axioms Gotcha.C123_second_process_ok
#print axioms Gotcha.C123_second_copy_takes_over
#print axioms Gotcha.C123_first_copy_misses_dlopen
#print axioms Gotcha.C123_first_copy_keeps_the_rest
#print axioms Gotcha.C123_later_libraries_are_missed
#print axioms Gotcha.C123_example_both
#print axioms Gotcha.C123_example_split
#print axioms Gotcha.C123_both_run_refuted
#print axioms Gotcha.C124_copies_run
#print axioms Gotcha.C124_stacks_survive
#print axioms Gotcha.C124_copies_do_not_interfere
#print axioms Gotcha.C124_words_never_admitted
#print axioms Gotcha.C124_filters_by_name_keep_copies_apart
#print axioms Gotcha.C124_example
#print axioms Gotcha.C125_undisturbed
#print axioms Gotcha.C125_use_after_free
#print axioms Gotcha.C125_reuse_skips
#print axioms Gotcha.C125_no_stale_pointer
#print axioms Gotcha.C125_all_visited
#print axioms Gotcha.C125_walk_safe
#print axioms Gotcha.C125_example
#print axioms Gotcha.C126_no_fault
#print axioms Gotcha.C126_calls_run_the_whole_stack
#print axioms Gotcha.C126_wired
#print axioms Gotcha.C126_no_stale_records
#print axioms Gotcha.C126_same_results
#print axioms Gotcha.C126_repairs_C15
#print axioms Gotcha.C127_distribution
#print axioms Gotcha.C127_split
#print axioms Gotcha.C127_rearranged
#print axioms Gotcha.C127_main_refuted
#print axioms Gotcha.C127_same_function_refuted
#print axioms Gotcha.C128_repair
#print axioms Gotcha.C128_one_call_refuted
#print axioms Gotcha.C129_self_healing
#print axioms Gotcha.C129_everything_back
#print axioms Gotcha.C129_repairs_C15
#print axioms Gotcha.C129_one_call_refuted
#print axioms Gotcha.C129_new_function_refuted
#print axioms Gotcha.C130_hash_library
#print axioms Gotcha.C130_no_leak
#print axioms Gotcha.C130_gone
#print axioms Gotcha.C130_no_fault
#print axioms Gotcha.C130_create_twice_refuted
#print axioms Gotcha.C131_healed
#print axioms Gotcha.C131_without_wrap_refuted
#print axioms Gotcha.C132_careful
#print axioms Gotcha.C132_everything
#print axioms Gotcha.C132_careless_refuted
#print axioms Gotcha.Sys.C133_system_calls
#print axioms Gotcha.Sys.C133_determined
#print axioms Gotcha.Sys.C133_tmpfile_refuted
#print axioms Gotcha.Printf.C134_writes
#print axioms Gotcha.Printf.C134_one_write
#print axioms Gotcha.Printf.C134_arrives
#print axioms Gotcha.Printf.C134_return_refuted
