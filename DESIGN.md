# Formal model of LLNL/GOTCHA in Lean 4 — design

## Approach

`lean/Verif/` contains an executable, function-by-function model of `/repo/src`
(every definition cites the C lines it models), small independent specifications,
and theorems relating the two for all inputs and all histories.

* Undefined behaviour, faults and divergence are explicit outcomes
  (`Except Fault α`), never assumed away: NULL/wild dereference, division by zero,
  out-of-bounds read, use of an uninitialised field, write to a read-only page,
  loop that does not terminate.
* Pointers to GOTCHA's own heap objects (tools, internal bindings, library records,
  hash entries) are indices into append-only stores; linked lists are modelled at
  pointer level (`next` fields), not as Lean lists; the abstraction to lists is proved.
* Machine integers are `BitVec` where the code relies on width (hashes, page
  arithmetic, ELF addresses, generation counter, number parsing, malloc sizes in the
  overflow theorem), `Nat`/`Int` elsewhere (stated in the definition's comment).
* Modules: `Model/*` (model of the code), `Spec/*` (specifications written without
  looking at the model's helpers), `Proof/*` (lemmas), `Props/*` (property theorems with
  a concrete non-vacuity example next to each).

## Plan per property

| id | modelled by | proof |
|----|-------------|-------|
| C01–C04, C06–C11, C13, C22–C24, C26 | `Model/Core`: process state = tool list, internal bindings, handles, three hash tables, library records, generation, filter, link map, memory words and page protection; ops wrap / set_priority / filter changes / dlopen / dlsym / dlclose / silent load | refinement of every history to an abstract per-function stack (`Spec/Stack`), by an invariant over histories |
| C05, C12, C14, C15, C16 | same model | claim is false of the code: concrete history evaluated in the kernel, and the general form for every process |
| C23 | same model; page protection | no history faults as long as loaded objects keep their page protection; `Props/Reload`: the exception in general |
| C17–C19 | dlsym part of the core, program headers | case analysis + refinement |
| C20–C21 | `Model/Tool`: pointer-level tool list | refinement to a sorted duplicate-free list and a priority map |
| C25 | `Model/Trace`: the individual stores of `gotcha_wrap`, recorded in order; a second thread calls the function between any two stores (sequential consistency, word-sized stores) | every prefix of the stores yields the old or the new call path; erasing the record gives back `Model/Core` |
| C27 | library table with the real comparison function and `link_map_hash` | `Spec/Records`: the list of (object, owner) pairs an execution leaves behind; invariant over histories with any hashes; collisions by witness and in general |
| C28–C32 | `Model/Hash`: open addressing with tombstones, growth and the threaded entry list | invariant + refinement to a finite map / list of entries |
| C33–C38 | `Model/Malloc`: byte-addressed heap, header words and free-list links stored in memory | tiling invariant over all histories |
| C39–C48 | `Model/LibC`, `Model/Printf`: C strings as memory bytes | induction on strings / numbers |
| C49–C52 | `Model/Elf`: dynamic section scan, symbol, version, hash and relocation tables with out-of-bounds as fault | induction along chains |
| C53–C54 | `Model/Got`: page arithmetic on `BitVec 64` | arithmetic |
| C55–C57, C59–C61 | `Model/Auxv`: reader loop against an arbitrary sequence of read results, text parsers | induction on schedule / line; refutations general over lines and layouts |
| C58 | `Model/Version` | arithmetic |
| C62–C64 | `Model/Utils`: debug level, doubly linked list of library records, assertion message | invariant over histories; composition of C42–C44 |
| C65–C67 | `Model/Autotee`: the example tool, streams and descriptors as channels that may accept only a part | simulation against the run without the tool |
| C68 | same model as C01; generation numbers of the library records | freezing lemma: a record with the current generation is skipped until the next gotcha_wrap; also gives C12, C14 and C16 in general |
| C69 | `Model/Auxv`: read_word with any buffer size | induction over the word |
| C70 | `Model/Elf`: INIT_DYNAMIC | induction over the dynamic section; tags as literal numbers in `Spec/Elf` |
| C71, C72 | `Model/Auxv`: read_hex, read_line | induction over the digits; file delivered in arbitrary pieces |
| C73, C74 | same model as C01; the bodies of `src/translations.c` | position of GOTCHA's own wrapper in the stack of main |
| C75–C77 | `Model/Oom`: the engine again, with every `gotcha_malloc` failing or not as an arbitrary oracle says | simulation between the two engines; crashes and lost initialisation by computation |
| C78 | `Model/Core` (`gotcha_wrap`, generation counter), `Props/Generation` | induction over empty wraps; the 32-bit wrap-around refutes the property with 2^32 − 1 as an instance |
| C79 | `Model/Core`, `Model/Tool`, `Props/Table` | the caller's rows and the tool name are kept by reference: what a later write into them changes; overwriting the *function name* of a row is not covered |
| C80 | `Model/Trace`: the individual stores of `dlopen_wrapper` after the real dlopen, recorded in order | the pending functions are all resolved before the first GOT is written, so every prefix of the stores yields the old or the new call path; the loader's own work is one step |
| C81, C82 | `Model/Debug`: the engine again, with the messages of level 1 recorded in order, and their formats; `Model/Printf` with NULL string arguments | erasing the messages gives `Model/Core`; the log of each call is computed from the abstract state and then from the history; printing goes through C45 |
| C83–C86 | the engine of C01–C09 and `dlsymWrapper`; `Props/Pointers` | stacks only grow, so a pointer's wrapper is still on the stack and everything registered before is inside it; `Stray` describes calls that end at an indeterminate pointer; GOTCHA's frame is the first one registered for dlopen and dlsym, and stacks are sorted stably |
| C87 | the engine of C01; `Props/Only` | the invariant claims up-to-date slots only for a chosen set of objects (`Ctx.good`); `HistoryFor` asks for passing filters, seen loads and no reloads of those objects only; C01 is the case of all objects |
| C88 | same model, two processes; `Proof/Protect`, `Props/Protect` | simulation between the process and the same process with all pages writable and every mprotect successful, up to the first SIGSEGV; with `History` on the second process it removes the conditions on page protection from C01 |
| C89 | `Model/Trace`: `runT`, the stores of a whole history in order; `Proof/TraceEvo`, `Proof/TraceMany`, `Props/Overlap` | in every recorded state the stack is linked up and grows (as a sublist), and the slot leads to a lower part of it; invariant of a caller: the frames it has run, followed by what is below it, contain the first stack; a measure gives termination |
| C90 | `Model/Ctor`: `stepEv`, `runEvs` (nested dlopen calls); `Spec/Ctor`, `Proof/Ctor`, `Props/Ctor` | a tree of events runs like its events in a row (mutual induction over the tree); loads before a dlopen returns can be left to that dlopen, as long as no gotcha_wrap is in between; with one in between, the freezing lemma of C68 applies |
| C91 | `Model/DlCalls`: `dlsymCalls`, `nextCalls` (`dlsym_wrapper` with the real calls it makes); `Props/DlCalls` | erasing the calls gives `dlsymWrapper` (`dlsymCalls_erase`); case analysis on top of `rtldNext_spec`; induction over the requests |
| C92 | `Model/DlCalls`; `errorAfter`, `nextIn` in `Props/DlCalls` | the last real call decides; case analysis as for C91 |
| C93 | `Model/Threads` (`gotcha_wrap` and `dlopen_wrapper` in parts, `runThreads`: any schedule of any number of threads); `Spec/Threads` (`asOps`: the serial history of a log); `Proof/Threads`, `Props/Threads` | an undisturbed thread is `wrapBody` or `dlopenWrapper` (`C93_undisturbed`, `C93_undisturbed_dlopen`); the engine's invariant with the pending bindings of all threads, preserved by each part (`step_thread`, `step_all`, `run_all`); abstract states up to registered tools (`Alike`); for the lost update: generation marks are kept by all parts (`run_marking`, `run_marked`) |
| C94 | `Props/ThreadsDl` on the machine of C93 | no thread writes the slots of a function outside all tables before a dlopen comes to `update_all_library_gots` (`run_others`), and nothing is written once all libraries are marked (`run_marked`) |
| C95 | `Model/Init` (`gotcha_init` in parts in front of the machine of C93); `Spec/Init`; `Proof/Forget`, `Props/Init` | a function missing from the function table stays out of it under every part of every thread that does not bind it (`runInit_fg`), and a table without it leaves its slots alone (`dlopenWrapper_mem`); a table without room makes every part that binds something crash (`processBindings_no`) |
| C96 | `Model/Heap` (the engine of `Model/Oom` with numbered blocks, `gotcha_free` and the `table` member of the global tables); `Spec/Heap`; `Proof/Heap`, `Props/Heap` | a relational triple (`Tri`): same outcome as `Model/Oom` with the same number of allocations, no bad free, and the allocated blocks are, up to order, the arrays of the tables, the blocks of the call in progress, and blocks that stay (`Raw`, `Inv`); induction over histories (`run_idle`); the kept blocks are a parameter `B` of the invariant |
| C97 | `Model/Count` (`add_binding_to_tool` and `gotcha_wrap` with an `int` count and `size_t` arithmetic); `Spec/Count`; `Props/Count` | 64-bit words against natural numbers; 2^64 - 1 is a multiple of 85 but 2^64 - 16 of 341 and 1365; equality with `gotchaWrap` of `Model/Core` on the first entries of the table, or on the empty table |
| C98 | `Model/Race` (`rewrite_wrapper_orders` in two parts, split after `lookup_hashtable`); `Spec/Race`; `Proof/Race`; `Props/Race` | a simulation by the machine of `Model/Threads` as long as lookups are up to date; otherwise the two insertions are followed step by step from any state that a schedule reaches |
| C99 | `Model/Core` (`Filter.accepts`, `State.updateLib`, `wrapCore`, `dlopenWrapper`); `Proof/Reach`; `Props/Reach` | the generation of every library record is below the one gotcha_wrap starts, and a library never loaded has no record, so the pass over the link map visits every admitted library; the outermost wrapper changed, so it is in the table of new bindings |
| C100 | `Model/Core` (`rewriteOrders`, `findPos`, `wrapCore`), `Model/Tool`; `Spec/Story`; `Proof/Story`; `Props/Compose` | the stack of the abstract state is the result of a small machine run on the projection of the history to one function; two histories with equal projections have equal stacks; with different priorities a sorted permutation is unique |
| C101 | `Model/Core` (`prepareLoop`), `Model/Elf` (`exported`, `onMatch`); `Spec/Loader`, `Spec/Elf`; `Proof/Loader`; `Props/Transparent` | for ordinary functions the lookup of C49/C50 returns the symbol the loader's rules select; the first definition among the objects of the start is found at the first registration and kept |
| C102 | `Model/Core`, `Model/Minimal`; `Spec/Program`; `Proof/Program`; `Props/Program` | targets of calls agree (slots from the view of C02, handles from C03, untouched slots by C10 along the history); what events return (C07, priorities) and where they lead by the run of the abstract model; induction over the ideal evaluation; the machine is deterministic |
| C103 | `Model/Kernel`, `Model/Auxv`, `Model/Core` (`State.isVdso`); `Spec/Auxv`; `Proof/Kernel`; `Props/Kernel` | simulation between the static variables of the file-reading code and the environment of the engine; C55, C56 for the values; C06 for the real function |
| C104 | `Model/Perm`, `Model/Got`, `Model/Core`; `Spec/Bits`; `Proof/Shut`; `Props/Bits` | a set of (link map, filter, protections, memory) closed under mprotect calls for admitted objects and under stores to writable words is not left by any event (structural, arbitrary states); C53, C54, C70 for the pages |
| C105 | `Model/Log` (the engine again, with all messages), `Spec/Log` (the reader); `Proof/LogSame`, `Proof/Log`; `Props/Log` | erasing gives `Model/Core`, the messages of level 1 give `Model/Debug` (both by going through the functions); for each function, replaying its messages on what the reader knew gives what is, and the messages are true of the loaded objects |
| C106 | `Spec/Weak`: memory as another processor sees it, over the stores of `Model/Trace`: a store buffer of any length (x86), release stores with acquire loads, plain stores with coherence per place only (ARM, POWER) | the trace comes from single-place stores; a reader under store buffers or release/acquire is simulated by the reader of C25/C80/C89 that lags behind; refutation with plain stores: new GOT word, old NULL handle |
| C107 | the stores of `Model/Trace`, as for C25 and C80 | the states split into a part where the slot's calls run the old stack and a part where they run the new one (`Safe` for each part): stacks change at one store, GOT words change once per pass (`PassTr`); refutation: stores of single places (`Links`) |
| C108 | `Model/Text` (formats, arguments, places), `Spec/Text` (lines of words and values); `Proof/Text`, `Proof/TextRead`, `Proof/TextNote`; `Props/Text` | every message as pieces of `gotcha_int_printf` (C45); lines of the same shape can be read, since a value is always followed by a text with a character that the value cannot contain; file and line tell the shape |
| C109 | `Spec/Steps` (threads, single steps, schedules, runs without end); `Proof/Steps`; `Props/Forever` | each step over stacks of wrappers is the same step on the machine (C102's agreement on targets and answers), the machine is deterministic under a schedule; running to the end (C102) is running step by step |
| C110 | `Spec/Lazy` (stubs, binding, histories and schedules with lazy binding); `Proof/Oblivious` (no engine function depends on memory), `Proof/Lazy`; `Props/Lazy` | simulation: the state with lazy binding differs from the one without in memory only, where slots lag behind; C10 keeps stubs out of the eager memory; refutation by a concrete process |
| C111 | `Model/Filters` (src/library_filters.c on memory); `Spec/Filters` (which objects pass); `Props/Filters` | case analysis on the last call, C40 for gotcha_strstr; the empty filter and a changed string by concrete memories |
| C112 | `Spec/Program` (`look`, `sym`, `BoundTo`, `Found`), `Spec/Steps`, `Spec/Lazy`; `Proof/Program`, `Proof/Oblivious`, `Proof/Lazy`; `Props/PointerProg` | C102, C109 and C110 for the larger language, with C10 for the slots of unwrapped functions and C17–C19 for dlsym; entering a stack in the middle by induction on what is below |
| C113 | `Model/Tests`, `Proof/Tests`, `Demo/Tests`, `Props/Tests` | symbolic execution of the programs on the ideal of C102/C112; the stack of three tools from the story (C100), compared with the bubble sort by cases on the order of the priorities |
| C114 | `Model/FilterTest`, `Spec/Program` (`LeftAlone`, `Kept`), `Demo/FilterTest`, `Props/FilterProg` | induction over the events during which the slot is left alone (C10); entering a stack of wrappers in the middle as in C112; symbolic execution of the test |
| C115 | `Model/Threads`; `Props/Signal` | a handler is a thread that runs alone from its call to its return; such a call comes to `update_all_library_gots` or writes nothing (induction on its steps); then C93_update_lost |
| C116 | `Model/StartTest`; `Props/StartProg` | programs in the sense of C97; GOTCHA's own table is the first, so its wrapper is the last of every stack it is in (C79); the highest version defined is the one reached (C101) |
| C117 | `Model/Hammer`; `Props/Hammer`, `Demo/Hammer` | stacks of a table of any size whose names differ (each name is in exactly one pair); induction on the checks, which are in continuation style |
| C118 | `Model/UnitHash`; `Props/UnitHash` | the bag of associations (C32) after each loop; the numeral is injective below ten million (C44), and two equal keys cannot both give their own number |
| C119 | `Model/UnitHeap`; `Proof/UnitHeap`; `Props/UnitHeap` | invariant: array slot j is NULL or a live block with the ints j + k; blocks are disjoint (C37), so writes keep the others |
| C120 | `Model/Rogot`; `Props/Rogot` | C65 and C66 between the calls; with tee_FILE NULL a wrapper is what it wraps; C67 for the example |
| C121 | `Proof/Frozen`, `Demo/Frozen`; `Props/Frozen` | the real function of the specification is kept by appending events; C87 for the calls; the definer is loaded when found and stays unless unloaded |
| C122 | `Model/ToolApi`; `Props/ToolApi` | list segments, for lists that need not contain every tool made; invariant of the two table lists |
| C123 | `Spec/Twin`; `Demo/Twin`; `Props/Twin`, `Props/TwinDemo` | the process the second copy finds is an instance of the general model; C87 and C10 for it |
| C124 | `Spec/Copies`; `Proof/Copies`; `Demo/Copies`; `Props/Copies`, `Props/CopiesDemo` | invariant over the interleaving: each copy's view is a history of the general model, the others act as a loader that writes words |
| C125 | `Model/Walk`; `Spec/Walk`; `Proof/Walk`; `Props/Walk`, `Props/WalkDemo` | the loop as a cursor on the link map; invariant: everything in front of the cursor has been visited |
| C126 | `Model/Drop`; `Spec/Drop`; `Proof/Drop`; `Props/Drop`, `Props/DropDemo` | the invariant of C01 with only the loaded objects as "seen"; the table has one record per object (duplicate-free, `LibTab`) |
| C127 | `Spec/Split`; `Proof/Split`; `Props/Split`, `Props/SplitDemo` | the abstract state after a row of calls, function by function; the assumptions of `History` carry over from one row to the other |
| C128 | `Model/Threads`; `Spec/Threads`, `Spec/Repair`; `Proof/Threads`; `Props/Repair`, `Props/RepairDemo` | along every schedule no library has a generation from the future; when all are behind, a dlopen writes every slot |
| C129 | `Model/Core`; `Spec/Repair`; `Props/Repair`, `Props/RepairDemo` | C128 without threads, for histories in which nothing is known about any slot |
| C130 | `Model/HashLib`, `Model/Heap`; `Spec/HashLib`; `Proof/HashLib`; `Props/HashLib` | the blocks are the arrays of the tables, one each; each step keeps that and answers as the bag |
| C131 | `Model/Core`; `Spec/Healed`; `Props/Healed`, `Props/HealedDemo` | after an empty table every record is behind, so a dlopen (whatever it loads) establishes the strict invariant for any set of objects that pass the filter; from there `run_spec` carries it |
| C132 | `Model/Core`; `Spec/Careful`; `Props/Careful` | split at the last dlopen, then C131; histories without one by the strict invariant |
| C133 | `Model/Syscall`; `Spec/Syscall`; `Props/Syscall` | per call by cases, sequences by induction; the relation of the specification is deterministic |
| C134 | `Model/Printf` (`printfWrites`); `Spec/Writes`; `Props/Writes` | invariant of the buffer (flushed parts are full buffers), induction over the writes |

The state of each property is in `MANIFEST.json`.

## Refuted properties

Several desirable properties are false of the code.  For these the negation is proved (theorem names
ending in `_refuted` or saying what happens instead), and what does hold is proved next to it
(the suffix `_partial` is kept for theorems that prove less than the property's statement; there is none
at present).  The status in the manifest refers to the statement in `properties.jsonl`, which
says what is true of the code.

## Testing the theorems

* `seeded/mutations.json`: edits of the model as realistic bugs, applied by `tools/mutate.py` to a scratch
  copy; outcomes in `seeded/LOG.jsonl`.
* `tools/automutate.py`: systematic operator, constant and deletion mutants of every model file; outcomes
  in `seeded/AUTO.jsonl`.
* `tools/citecheck.py`: checks that the source lines cited in the model exist and contain the function.

## Trusted base

* Lean 4.33.0 kernel; axioms `propext`, `Classical.choice`, `Quot.sound` only (list per theorem below).
  No axioms of our own, no `sorry`, no `native_decide`, no `bv_decide`.
* The reading of the C code (nothing is extracted or run); LP64, little endian, signed
  `char` (x86-64) where width or sign matters.
* The dynamic loader, kernel and libc (default build) are parameters: link map contents,
  ELF images, results of the real `dlsym`/`dlopen`, `mmap`, `read`, `mprotect` (a failing `mprotect`
  changes nothing).
* For C25, C80 and C89, sequential consistency and atomic word-sized stores; C106 carries them over to store buffers
  (x86) and shows what fails on processors that reorder stores.  In C106 the loads of a caller are in program order.
* For C65–C67, that the outcome of an output operation depends on its own channel only.

### Modelled

* `src/gotcha.c`: all functions (`gotcha_wrap`, `gotcha_get_wrappee`, `gotcha_set_priority`,
  `gotcha_get_priority`, configuration values, `rewrite_wrapper_orders`, `update_all_library_gots`,
  `update_library_got`, `mark_got_writable`, symbol lookup, `prepare_symbol`, ...).  The engine's state has the
  write permission of every address only; read and execute are in `Model/Perm`.
* `src/gotcha_dl.c`: dlopen and dlsym wrappers, `_dl_sym` path, caller lookup by program headers.
* `src/tool.c`, `src/hash.c`, `src/translations.c`, `src/library_filters.c`,
  `src/elf_ops.c`, `src/gotcha_auxv.c`, `src/gotcha_utils.c`.
* `src/libc_wrappers.c`: allocator, string and memory functions, number formatting, `gotcha_int_printf`,
  `gotcha_getenv`, `gotcha_atoi`, `gotcha_assert_fail`, page size, system call wrappers.
* `src/example/autotee/autotee.c`, `src/example/minimal/sampleLib.c` and `symbolLookup.c`.
* The programs of `test/stack`, `test/ppc_stress_multi_module`, `test/function_ptr`, `test/priority`, `test/dispatcher`,
  `test/dlopen`, `test/filter`, `test/symver`, `test/wrap_main`, `test/hammer` and `test/rogot`, and `hash_grow_test`,
  `gotcha_heap_test` and the removal of tools in `symbol_wrap_test` of `test/unit`.

### Not modelled

* The reports (`error_printf`) after failed allocations, the messages before a fault and the one of `debug_init`.
* How `int` arguments travel through 64-bit registers in the system call wrappers (C133), and
  `src/libc_wrappers.h`'s choice between libc and the internal functions (the engine is modelled with ideal string functions; the
  internal ones are shown to behave like them in C39–C42, C47, C48).
* The C start-up code around `__libc_start_main` (C73, C74 end at the call of the real one and at the main
  function passed to it).
* Relocation processing, symbol binding and constructor order of the dynamic loader itself (`Spec/Loader`
  says which definition the loader binds, with symbol versions and IFUNCs, and C101 compares GOTCHA's choice
  with it; running a resolver is not modelled); static linking; 32-bit targets; big endian; weak memory orders
  other than those of C106; signal handlers that call GOTCHA, other than between the parts of `Model/Threads` (C115; calls of wrapped functions by a
  handler are covered by C107).
* Threads interrupted inside a part of `gotcha_wrap` or `dlopen_wrapper` (`Model/Threads` interleaves whole
  parts, `Model/Init` does so for `gotcha_init`; `Model/Race` also interrupts `rewrite_wrapper_orders` after
  its lookup), and `dlclose` in another thread other than during `update_all_library_gots` (C125).
* Most of the tests in `test/unit`, and `src/example/minimal`'s build files.
* Out of memory outside `Model/Oom`: the theorems about `Model/Core` other than C75–C77 are about runs in
  which the engine's own allocations succeed (C75 relates the two); the allocator model (C33–C38) covers
  failing `mmap`.

## Axioms of each theorem

(Generated by tools/axioms.py from the `#print axioms` of `Verif.Audit`.)

* none: `C58_bounds_needed`, `C67_close_twice_refuted`
* propext: `C32_second_add_does_not_replace`, `C32_visible_entry_depends_on_other_keys`, `C39_not_an_ordering`, `C44_signed_min_refuted`, `C52_no_pltrel_refuted`, `C55_once`, `C56_stable`, `C62_once`, `C66_short_write_refuted`, `C67_output_after_close_refuted`, `C70_no_dynamic_section`, `C130_create_twice_refuted`
* Quot.sound, propext: `C05_rewrap_loops_forever`, `C25_rewrap_not_atomic`, `C37_rounds_to_zero`, `C37_huge_size_accepted`, `C41_strnlen_overread`, `C41_strnlen_unterminated`, `C47_memcpy`, `C47_memset`, `C49_non_ascii_refuted`, `C52_rela_visited`, `C52_rel_visited`, `C52_no_pltrel_visits_nothing`, `C54_region_is_its_own`, `C54_none_iff`, `C54_own_segment`, `C56_by_name`, `C59_interrupted_line_refuted`, `C65_autotee_transparent`, `C66_autotee_complete`, `C66_init`, `C67_other_calls_after_close`, `C75_internal`, `C75_dlopen`, `C75_enough`, `C75_enough_others`, `C75_priorities`, `C76_wrap_crash`, `C76_set_priority_crash`, `C76_tool_reported`, `C77_init_lost`, `C77_refuted`, `C82_silent`, `C88_refused_mprotect_crashes_or_changes_nothing`, `C89_mixture`, `C91_at_most_one`, `C93_undisturbed`, `C93_undisturbed_dlopen`, `C95_crash`, `C96_reopen`, `C96_dlclose_refuted`, `C97_empty`, `C97_overflow`, `C102_minimal_null_wrappee`, `C103_answers_of_one_environment`, `C104_never_restored`, `C104_patched_words_stay_writable`, `C104_write_bit`, `C105_dlsym`, `C108_spaces_refuted`, `C109_to_the_end`, `C110_never_reads_slots`, `C111_filters`, `C111_model_filters`, `C111_null_function`, `C120_rogot`, `C120_example`, `C120_init_fails`, `C121_loaded_while_definer_stays`, `C122_get`, `C122_remove_missing`, `C122_remove_all`, `C122_remove_stale_refuted`, `C125_undisturbed`, `C125_use_after_free`, `C125_reuse_skips`, `C125_no_stale_pointer`, `C125_all_visited`, `C130_gone`, `C134_arrives`
* Classical.choice, Quot.sound, propext: `C01_wired`, `C01_calls_run_the_whole_stack`, `C01_client_functions`, `C02_priority_order`, `C02_set_priority_does_not_reorder`, `C03_equal_priority_first_is_outermost`, `C03_documented_fifo_refuted`, `C04_wrappee_is_next`, `C04_no_cycles`, `C05_rewrap_harmless_refuted`, `C05_rewrapped_calls_never_return`, `C06_real_is_first_definition`, `C07_return_code`, `C08_pending_resolved_by_dlopen`, `C08_resolved_stays`, `C09_dlopen_rewires_everything`, `C10_only_slots_of_wrapped_functions`, `C11_words_never_admitted`, `C11_rejected_library_untouched`, `C11_filter_by_name`, `C12_lifted_filter_refuted`, `C12_lifted_filter_comes_too_late`, `C13_main_through_libc_start_main`, `C14_main_with_others_refuted`, `C14_main_hides_the_rest_of_the_table`, `C15_dlclose_and_dlopen_refuted`, `C15_new_object_is_intercepted`, `C15_reloaded_library_is_not_intercepted`, `C16_silent_load_refuted`, `C16_silently_loaded_stays_unwrapped`, `C17_dlsym_one_tool`, `C17_two_tools_bypassed`, `C17_outermost_wrapper_refuted`, `C18_dlsym_transparent`, `C19_rtld_next`, `C19_unknown_caller_exits`, `C20_set_then_get`, `C20_default`, `C20_unknown`, `C21_tool_list`, `C22_attribution`, `C23_reload_crash_refuted`, `C23_reload_crashes`, `C23_no_fault`, `C23_only_dlopen_faults`, `C23_no_fault_without_dlopen`, `C24_indeterminate_only_when_unresolved`, `C24_which_handle_is_indeterminate`, `C24_wrappee_always_set_refuted`, `C25_insertion_is_atomic`, `C26_skipping_in_dlopen_loses_nothing`, `C26_wrap_skips_no_library`, `C27_records_belong_to_their_library`, `C27_collision_refuted`, `C27_hash`, `C27_records_in_general`, `C27_collision_shares`, `C27_records_in_any_history`, `C28_table_is_map`, `C28_strhash`, `C29_count_and_load`, `C29_add_stores`, `C30_grow_preserves`, `C31_foreach_visits_once`, `C32_first_addition_wins`, `C32_table_is_bag`, `C33_no_fault`, `C33_apart`, `C33_malloc`, `C34_tiling`, `C35_realloc`, `C35_others_kept`, `C36_best_fit`, `C36_mmap_last`, `C36_mmap_length`, `C37_negative_difference`, `C37_area`, `C37_writes_before_area`, `C38_writes_harmless`, `C38_headers_kept`, `C39_strcmp`, `C39_strncmp`, `C39_strncmp_strings`, `C40_strstr_result`, `C40_strstr_found`, `C40_pointer_refuted`, `C41_strlen`, `C41_strnlen`, `C42_getenv`, `C43_atoi`, `C43_atoi_overflow`, `C43_atoi_wrap`, `C44_decimal`, `C44_hex`, `C44_any_size`, `C44_signed`, `C44_negative_any_size`, `C44_unique`, `C45_printf`, `C45_return`, `C46_exact`, `C46_long_refuted`, `C47_memcpy_fault`, `C48_strncat`, `C48_overwrite_refuted`, `C48_overread_refuted`, `C48_overrun_refuted`, `C49_gnu_lookup`, `C49_gnu_missed`, `C49_gnu_lookup_ascii`, `C49_non_ascii_missed`, `C49_exported`, `C49_exported_non_ascii`, `C50_sysv_lookup`, `C50_exported`, `C51_gnu_reads`, `C51_sysv_reads`, `C51_exported_reads`, `C53_aligned`, `C53_covers_got`, `C53_covers_relro`, `C53_nothing_else`, `C53_library`, `C53_no_pltgot`, `C55_vector`, `C55_pagesize`, `C55_errors`, `C55_unterminated`, `C56_by_auxv`, `C56_by_maps`, `C57_line`, `C57_file`, `C58_monotone`, `C58_components`, `C60_lookalike_refuted`, `C60_witness`, `C61_short_line_refuted`, `C62_silent`, `C62_level`, `C63_library_list`, `C64_assert_message`, `C65_fwrite_result_refuted`, `C68_wrap_settles_libraries`, `C68_what_was_missed_stays_missed`, `C68_dlopen_settles_libraries`, `C68_late_library_stays_unwrapped`, `C69_read_word`, `C69_read_back`, `C69_size_zero`, `C69_overrun`, `C70_dynamic_section`, `C70_zero_entry_size`, `C71_read_hex`, `C71_unterminated`, `C71_read_back`, `C72_read_line`, `C72_read_error`, `C72_whole_file`, `C73_start_skips_high_priority`, `C73_all_skipped`, `C73_start_call`, `C74_unexported_main_never_starts`, `C75_complete`, `C78_generation_wraps_refuted`, `C79_table_kept_by_reference`, `C79_tool_name_kept_by_reference`, `C80_dlopen_is_atomic`, `C81_wrap`, `C81_symbol_refuted`, `C81_priority`, `C81_dlopen`, `C82_prints`, `C82_null_refuted`, `C82_prints_all`, `C82_wrap_null_refuted`, `C83_pointer_keeps_its_wrappers`, `C83_later_outer_tool_refuted`, `C84_probe_finds_a_missing_function`, `C84_found_means_callable_refuted`, `C84_probe_compares_an_indeterminate_pointer`, `C85_next_ignores_the_caller`, `C85_next_otherwise_bypasses`, `C85_next_leads_past_the_caller_refuted`, `C86_place_of_gotchas_wrapper`, `C86_gotcha_is_innermost_refuted`, `C87_admitted_libraries_are_intercepted`, `C87_filter_by_name_splits`, `C88_returned_means_intercepted`, `C88_read_only_slot_crashes`, `C89_overlapping_calls`, `C89_wrapped_before`, `C90_events_in_a_row`, `C90_calm_constructors`, `C90_constructor_wrap_escapes`, `C90_others_stay_intercepted`, `C90_constructor_wrap_refuted`, `C91_calls`, `C91_references_accumulate`, `C91_unbounded`, `C91_dlsym_takes_no_reference_refuted`, `C92_other_handle`, `C92_next`, `C92_wrapper_with_error`, `C92_error_means_null_refuted`, `C92_null_means_error_refuted`, `C93_some_serial_order`, `C93_no_registration_lost`, `C93_update_lost`, `C93_success_means_intercepted_refuted`, `C94_new_object_missed`, `C94_wrap_beside_dlopen_refuted`, `C94_dlopen_beside_wrap_refuted`, `C95_undisturbed`, `C95_forgotten`, `C95_first_calls_refuted`, `C96_no_bad_free`, `C96_accounted`, `C96_kept`, `C96_agrees`, `C97_size`, `C97_exact`, `C97_negative`, `C97_negative_refuted`, `C98_up_to_date`, `C98_stale`, `C98_no_registration_lost_refuted`, `C99_wrap_reaches_what_the_filter_lets_through`, `C99_first_wrap`, `C99_dlopen_reaches_what_the_filter_lets_through`, `C99_only_last_is_written`, `C99_only_last_and_dlopen`, `C99_only_last_takes_the_dlopened_object_refuted`, `C100_calls_follow_the_story`, `C100_events_outside_the_story`, `C100_nothing_else_matters`, `C100_order_of_tools_does_not_matter`, `C100_ties_depend_on_the_order_refuted`, `C101_calls_reach_what_the_loader_binds`, `C101_wrapping_is_transparent`, `C101_calls_reach_the_highest_version`, `C101_versions_refuted`, `C101_ifuncs_refuted`, `C102_programs_see_the_stacks`, `C102_wrappers_compose`, `C102_minimal_example`, `C102_minimal_main`, `C103_environment_of_the_vector`, `C103_only_the_vdso_is_passed_over`, `C103_lookalike_refuted`, `C104_event`, `C104_only_library_pages`, `C104_writable_and_executable`, `C105_silent`, `C105_level_one`, `C105_record`, `C105_history`, `C105_history_total`, `C105_changed_word`, `C105_changed_pointer`, `C105_lookups`, `C106_one_store_at_a_time`, `C106_insertion_in_order`, `C106_dlopen_in_order`, `C106_overlapping_in_order`, `C106_reordered_refuted`, `C107_wrap_has_one_moment`, `C107_dlopen_has_one_moment`, `C107_not_all_at_once`, `C108_prints`, `C108_prints_log`, `C108_unambiguous`, `C108_output_tells`, `C108_one_line`, `C108_one_line_refuted`, `C109_lockstep`, `C109_never_ends`, `C109_and_back`, `C110_lazy_binding_makes_no_difference`, `C110_calls_run_the_whole_stack`, `C110_programs`, `C110_overlapping_binding_refuted`, `C111_filters_without_libc`, `C111_builds_agree`, `C111_empty_filter_refuted`, `C111_name_is_kept_refuted`, `C112_pointers_compute`, `C112_dlsym_like_a_slot`, `C112_dlsym_past_the_wrappers`, `C112_dlsym_unwrapped`, `C112_early_pointer_refuted`, `C113_stack`, `C113_stress`, `C113_function_ptr`, `C113_priority`, `C113_dispatcher`, `C113_dlopen`, `C114_kept_out_computes`, `C114_kept_out_unwrapped`, `C114_filter_test`, `C115_interrupted_calls_write_no_more`, `C115_handler_defeats_wrap`, `C116_program_start`, `C116_wrap_main`, `C116_symver`, `C117_hammer`, `C118_hash_grow_test`, `C118_hash_grow_test_fails`, `C119_heap_test`, `C119_heap_test_passes`, `C121_fixed_for_good`, `C121_dangling`, `C121_transparent_iff`, `C121_not_both`, `C121_wrappers_for_good`, `C121_example`, `C121_own_definition_refuted`, `C121_ends_in_loaded_code_refuted`, `C121_unloaded_tool_refuted`, `C122_unknown_key`, `C122_remove`, `C122_symbol_wrap_test`, `C122_after_history`, `C122_tables`, `C123_second_process_ok`, `C123_second_copy_takes_over`, `C123_first_copy_misses_dlopen`, `C123_first_copy_keeps_the_rest`, `C123_later_libraries_are_missed`, `C123_example_both`, `C123_example_split`, `C123_both_run_refuted`, `C124_copies_run`, `C124_stacks_survive`, `C124_copies_do_not_interfere`, `C124_words_never_admitted`, `C124_filters_by_name_keep_copies_apart`, `C124_example`, `C125_walk_safe`, `C125_example`, `C126_no_fault`, `C126_calls_run_the_whole_stack`, `C126_wired`, `C126_no_stale_records`, `C126_same_results`, `C126_repairs_C15`, `C127_distribution`, `C127_split`, `C127_rearranged`, `C127_main_refuted`, `C127_same_function_refuted`, `C128_repair`, `C128_one_call_refuted`, `C129_self_healing`, `C129_everything_back`, `C129_repairs_C15`, `C129_one_call_refuted`, `C129_new_function_refuted`, `C130_hash_library`, `C130_no_leak`, `C130_no_fault`, `C131_healed`, `C131_without_wrap_refuted`, `C132_careful`, `C132_everything`, `C132_careless_refuted`, `C133_system_calls`, `C133_determined`, `C133_tmpfile_refuted`, `C134_writes`, `C134_one_write`, `C134_return_refuted`
