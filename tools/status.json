{
 "C32": {
  "note": "The replacement claim is false of the code (C32_second_add_does_not_replace, C32_visible_entry_depends_on_other_keys). What holds is proved for all histories (C32_table_is_bag), and without removals and growth the first addition wins (C32_first_addition_wins)."
 },
 "C25": {
  "status": "proved",
  "note": "Old-or-new proved for tables listing the function once and clients with one handle per binding; GOTCHA's own first registration of dlopen/dlsym/main is excluded for those names. C25_rewrap_not_atomic: passing a table twice is never safe."
 },
 "C05": {
  "note": "False of the code as a wish; the refutation is proved in general: after any history, wrapping bindings again makes every call through them loop for ever."
 },
 "C12": {
  "note": "Refutation by a concrete history evaluated in the kernel, and the general form for every process: a library let in again before a gotcha_wrap for other functions is never intercepted for the earlier ones."
 },
 "C14": {
  "note": "Refutation by a concrete history evaluated in the kernel, and the general form for every process: the first table that names main leaves the slots of all other functions as they were."
 },
 "C16": {
  "note": "Refutation by a concrete history evaluated in the kernel, and the general form for every process."
 },
 "C15": {
  "note": "Refuted for the same object loaded again at the same link_map address: a concrete history, and C15_reloaded_library_is_not_intercepted for every process and history. Interception of an object not loaded before, also at the link_map address of an unloaded one, is proved in general."
 },
 "C17": {
  "note": "With two tools the wrapper handed out by dlsym is not the outermost (refuted); proved for one tool."
 },
 "C23": {
  "note": "Without qualification the claim is false of the code (C23_reload_crash_refuted, and C23_reload_crashes for any process and history). With objects that are loaded again having writable slots nothing faults for well-behaved clients; for arbitrary clients the only fault is an intercepted dlopen without a function to forward to."
 },
 "C24": {
  "status": "proved",
  "note": "False of the code as a wish; the stated refutation is proved, and exactly which handles are indeterminate after every history."
 },
 "C27": {
  "note": "What the code does is settled for every execution: C27_records_in_any_history says which object's record is found whatever the hashes. Without collisions every library has its own record; with one the claim is false of the code (C27_collision_refuted by a run, C27_collision_shares for any two colliding objects)."
 },
 "C44": {
  "note": "The smallest signed number overflows (refuted); all other numbers proved."
 },
 "C48": {
  "note": "The C contract is refuted (always n bytes copied, faults where strncat does not); what the function does is proved exactly for disjoint buffers."
 },
 "C49": {
  "note": "Proved for every name whose signed-char hash agrees with the ELF hash (all 7-bit names); a name with a number of bytes >= 0x80 that is not a multiple of 32 is proved never to be found through the GNU section."
 },
 "C59": {
  "note": "Refutation, for all interrupted reads of the stated kind."
 },
 "C60": {
  "note": "Refutation, for all look-alike layouts, with a witness."
 },
 "C61": {
  "note": "Refutation, for all such lines."
 },
 "C65": {
  "note": "Proved for fwrite results below 2^31; refuted above (the wrapper returns int)."
 },
 "C66": {
  "note": "Completeness proved for accepted output; refuted for short writes."
 },
 "C67": {
  "note": "Refutation, and what still works after closing."
 },
 "C68": {
  "note": "For all histories; C12, C14 and C16 follow from it."
 },
 "C69": {
  "note": "For every word length and buffer size, size zero included."
 },
 "C73": {
  "note": "Exact set of wrappers that run at start-up. The wish that all of them run is false of the code for priorities above GOTCHA's own."
 },
 "C74": {
  "note": "A refutation of the wish that wrapping main never breaks a program, for every process and history in which main stays unresolved."
 },
 "C75": {
  "note": "Tables binding main are excluded: the two inner gotcha_wrap calls of the main block ignore GOTCHA_INTERNAL."
 },
 "C76": {
  "note": "Refutation, for all states of the stated kind; the one reported failure is proved too."
 },
 "C77": {
  "note": "Refutation: general for initialisation, with a concrete process for the successful gotcha_wrap."
 },
 "C78": {
  "note": "Refutation, for every process and history of the stated kind. The engine's own allocations are assumed to succeed; the calls need some hundred gigabytes."
 },
 "C79": {
  "note": "Refutation, for every process and history; overwritten function names (the keys of GOTCHA's hash tables) are not covered."
 },
 "C80": {
  "status": "proved",
  "note": "Stores of dlopen_wrapper from the end of the real dlopen on; the loader's own stores count as one step. Slots of old objects whose function is still pending are excluded: they lead to a wrapper that cannot go on already before (C24)."
 },
 "C81": {
  "status": "proved",
  "note": "The exact report is stated for tables without \"main\" after the first API call; what is reported in the remaining cases is characterised by callLog (wrap_callLog) over the abstract state. Messages of levels 2 and 3: C105. The refutation covers all cases."
 },
 "C82": {
  "status": "proved",
  "note": "printf of the build without libc; with libc the messages are libc's business. Lines longer than 4096 characters: C46."
 },
 "C83": {
  "status": "proved",
  "note": "The slot belongs to a library loaded when the pointer is read; a pointer taken before wrapping is the real function itself and is not wrapped, as documented."
 },
 "C84": {
  "status": "proved",
  "note": "Refutation, for every process and history of the stated kind."
 },
 "C85": {
  "status": "proved",
  "note": "Refutation: the general behaviour for every caller, and a concrete process in which the result leads back to the caller. The real dlsym and dlopen are arbitrary functions."
 },
 "C86": {
  "status": "proved",
  "note": "Refutation with the exact place of GOTCHA's wrapper for settled priorities; __libc_start_main and main are covered by C13 and C73."
 },
 "C87": {
  "status": "proved",
  "note": "Generalises C01 and C02 to part of the process; positional filters (gotcha_only_filter_last) let no library pass in this sense. The generation bound, slot consistency and the condition on tables with main remain global."
 },
 "C88": {
  "status": "proved",
  "note": "The error message of mark_got_writable says that calls to wrapped functions may fail; what happens is a crash. An mprotect call is all or nothing in the model. The other theorems about histories assume only that the slots themselves are writable or covered by a successful mprotect."
 },
 "C89": {
  "status": "proved",
  "note": "C89_mixture is a witness that the conclusion cannot be strengthened to 'the stack at one moment'. The operations themselves follow each other; two threads inside gotcha_wrap at the same time are the subject of C93."
 },
 "C90": {
  "status": "proved",
  "note": "The expectation that a dlopened object is intercepted whatever its constructors do is refuted (C90_constructor_wrap_refuted) and the opposite proved for every process (C90_constructor_wrap_escapes); C90_calm_constructors is what holds. The loader is assumed to relocate all new objects before it runs the first constructor."
 },
 "C91": {
  "status": "proved",
  "note": "That dlsym takes no references is refuted (C91_dlsym_takes_no_reference_refuted, C91_unbounded); the references taken are counted exactly (C91_references_accumulate)."
 },
 "C92": {
  "status": "proved",
  "note": "Both directions of the usual expectation are refuted (C92_error_means_null_refuted, C92_null_means_error_refuted); the cases where it holds and the exact deviation are proved. Assumed of the real functions: dlsym reports an error exactly when it returns NULL, and every call replaces the error left by the one before."
 },
 "C93": {
  "status": "proved",
  "note": "That success means interception when calls overlap is refuted (C93_success_means_intercepted_refuted), the general situation in which it fails is C93_update_lost; registrations are never lost (C93_some_serial_order, C93_no_registration_lost). Threads are interleaved between the parts of gotcha_wrap only."
 },
 "C94": {
  "status": "proved",
  "note": "That a gotcha_wrap beside a dlopen intercepts its functions, and that a dlopen beside a gotcha_wrap intercepts the functions wrapped before, are refuted (C94_wrap_beside_dlopen_refuted, C94_dlopen_beside_wrap_refuted); the general situations are C93_update_lost and C94_new_object_missed. Threads are interleaved between the parts of the functions only."
 },
 "C95": {
  "status": "proved",
  "note": "That functions wrapped with success are intercepted in objects loaded later is refuted for overlapping first calls (C95_first_calls_refuted); the general situation is C95_forgotten. Threads are interleaved between the parts of gotcha_init and gotcha_wrap only."
 },
 "C96": {
  "status": "proved",
  "note": "That memory returns to what it was after dlopen and dlclose is refuted (C96_dlclose_refuted). Block sizes are counted in elements, not bytes."
 },
 "C97": {
  "status": "proved",
  "note": "That a negative count is refused on every page size is refuted (C97_negative_refuted). Allocations outside add_binding_to_tool are taken to succeed (Model/Oom covers them)."
 },
 "C98": {
  "status": "proved",
  "note": "That no registration is lost under arbitrary interleavings at this granularity is refuted (C98_no_registration_lost_refuted)."
 },
 "C99": {
  "status": "proved",
  "note": "That gotcha_only_filter_last selects the dlopened object is refuted (C99_only_last_takes_the_dlopened_object_refuted)."
 },
 "C100": {
  "status": "proved",
  "note": "That the order of tools never matters is refuted for equal priorities (C100_ties_depend_on_the_order_refuted)."
 },
 "C101": {
  "status": "proved",
  "note": "Transparency without the conditions is refuted twice (C101_versions_refuted, C101_ifuncs_refuted); C101_calls_reach_the_highest_version says in general where calls end. The loader is a specification: search order is the link map, no RTLD_LOCAL, RTLD_DEEPBIND or -Bsymbolic."
 },
 "C102": {
  "status": "proved",
  "note": "One thread. The agreement is for runs that end (programs are big-step). Slots of functions nobody wraps are covered for objects that were loaded at the start and stay."
 },
 "C103": {
  "status": "proved",
  "note": "Without the uniqueness of the offset the claim about calls is refuted (C103_lookalike_refuted)."
 },
 "C104": {
  "status": "proved",
  "note": "The wishes that RELRO is restored and that no page is writable and executable are refuted: C104_patched_words_stay_writable, C104_writable_and_executable. Excluded by Sized: empty RELRO segments and tables that wrap around the address space."
 },
 "C105": {
  "status": "proved",
  "note": "About the messages with their arguments; their text is C82 for level 1. Messages printed before a fault and the reports after failed allocations are not modelled."
 },
 "C106": {
  "status": "proved",
  "note": "C106_one_store_at_a_time; C106_insertion_in_order, C106_dlopen_in_order and C106_overlapping_in_order carry C25, C80 and C89 over to store buffers and to release/acquire; C106_reordered_refuted shows the failure with plain stores on processors that reorder them. The callers' own loads are taken in program order."
 },
 "C107": {
  "status": "proved",
  "note": "Same conditions as C25 and C80. C107_not_all_at_once is the refutation for several call sites."
 },
 "C108": {
  "status": "proved",
  "note": "C108_unambiguous is for names without spaces and line breaks and messages without NULL strings (C82). C108_one_line_refuted and C108_spaces_refuted are the refutations."
 },
 "C109": {
  "status": "proved",
  "note": "The stacks are those of C102. Each event is one step here."
 },
 "C110": {
  "status": "proved",
  "note": "The resolution of a stub is fixed; binding happens between events (within one: the refutation)."
 },
 "C111": {
  "status": "proved",
  "note": "libc's strstr by its specification, gotcha_strstr by its code. A client's own filter function is a total function of memory and link map."
 },
 "C112": {
  "status": "proved",
  "note": "In a program dlsym is GOTCHA's once GOTCHA has been used, without looking at the slot it is called through."
 },
 "C113": {
  "status": "proved",
  "note": "Of what the programs write only standard output is kept; init functions are called in place; a failing dlopen is left out. The tests filter (C114), symver and wrap_main (C116), hammer (C117) and unit (C118) have properties of their own; rogot: C120."
 },
 "C114": {
  "status": "proved",
  "note": "Of what test/filter writes nothing is kept (it goes to standard error). Slots of other objects at the same address are excluded by hypothesis."
 },
 "C115": {
  "status": "proved",
  "note": "Interruptions between the parts of Model/Threads only. That registrations are not lost and stacks stay sound under any interleaving, and so also here, is C93."
 },
 "C116": {
  "status": "proved",
  "note": "__libc_start_main itself is only the call of the function it is given. The status passed to exit stands as its result. wrap_main is stated for a first tool whose priority is not higher than GOTCHA's own (as in the test)."
 },
 "C117": {
  "status": "proved",
  "note": "Integers without overflow. dladdr finds the names. What the program prints is left out."
 },
 "C118": {
  "status": "proved",
  "note": "Allocation succeeds; int overflow of the loop counter is left out."
 },
 "C119": {
  "status": "proved",
  "note": "The ints i + j of the test do not overflow below 2^30 blocks."
 },
 "C120": {
  "status": "proved",
  "note": "That the calls between reach the wrappers, and that the wrapped functions are the C library's, is C116 and the like; here it is the model of C65."
 },
 "C121": {
  "status": "proved",
  "note": "What the loader had bound a caller to is the word in its GOT slot; slots still waiting for lazy binding are the subject of C110. The claims one would wish for are refuted with two plugins that both define bar, and with a tool in a library of its own."
 },
 "C122": {
  "status": "proved",
  "note": "Only gotcha_set_priority removes tools in the library, and always one in the list."
 },
 "C123": {
  "status": "proved",
  "note": "The two histories follow one another; C124 has them interleaved."
 },
 "C124": {
  "status": "proved",
  "note": "For a copy, an object loaded by a dlopen that another copy sees is loaded behind its back; whole calls are interleaved, threads inside calls are not."
 },
 "C125": {
  "status": "proved",
  "note": "One walk; the other threads' loader activity comes in before a library is updated or before l_next is read, not inside update_library_got."
 },
 "C126": {
  "status": "proved",
  "note": "The engine never calls remove_library; the call at dlclose is the repair whose effect is proved. The function itself is the code's."
 },
 "C127": {
  "status": "proved",
  "note": "The conditions are needed: C127_main_refuted, C127_same_function_refuted. The generation counter must not wrap around with the larger number of calls either."
 },
 "C128": {
  "status": "proved",
  "note": "Threads stop only between the parts into which Model/Threads divides the functions; no table names main and the generation counter does not wrap around."
 },
 "C129": {
  "status": "proved",
  "note": "Libraries that come back have writable slots (otherwise writing them can crash, C15); each GOT slot belongs to one function, the first table with main contains nothing else, and the generation counter does not wrap around."
 },
 "C130": {
  "status": "proved",
  "note": "keycmp compares for equality, pages have room for an entry, initial sizes are not 0; the client goes by the return value of create_hashtable. Overflow of sizes is not modelled."
 },
 "C131": {
  "status": "proved",
  "note": "clients use one handle per binding; each GOT slot belongs to one function, the first table with \"main\" contains nothing else, and the 32-bit generation counter does not wrap around."
 },
 "C132": {
  "status": "proved",
  "note": "for the objects that every filter set lets pass; objects are loaded by dlopen only; clients use one handle per binding; each GOT slot belongs to one function, the first table with \"main\" contains nothing else, the generation counter does not wrap around; objects that come back have writable slots (C15)."
 },
 "C133": {
  "status": "proved",
  "note": "syscall is libc's function of that name; that ints go through 64-bit registers is not modelled. The O_TMPFILE case is refuted by C133_tmpfile_refuted."
 },
 "C134": {
  "status": "proved",
  "note": "a kernel is the number of bytes it takes of each buffer; that a single write to a file or pipe is atomic is a matter of the kernel. The return value claim is refuted by C134_return_refuted."
 }
}
