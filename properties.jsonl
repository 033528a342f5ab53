{"id": "C01", "title": "Wrapped calls run the whole tool stack and then the real function", "statement": "After any sequence of gotcha_wrap, gotcha_set_priority and dlopen calls by clients that give every binding its own handle variable, a call to a wrapped function f made through the GOT slot of any loaded library runs the wrapper of every tool that wrapped f, each exactly once and in stack order (each wrapper continuing with gotcha_get_wrappee of its own handle), and then the real f; the call terminates.", "quantifier": "every history of API calls, every set of loaded libraries and relocation tables, every number of tools, every wrapped name", "why_tests_cant": "the claim ranges over unbounded histories and stack depths; a test exercises one stack", "anchors": ["src/gotcha.c: gotcha_wrap, rewrite_wrapper_orders, insert_at_head, insert_after_pos, update_all_library_gots, gotcha_get_wrappee", "src/gotcha_dl.c: dlopen_wrapper"]}
{"id": "C02", "title": "Higher-priority tools are called first", "statement": "If no tool's priority is changed after that tool has wrapped something, then for every function the wrappers are called in non-increasing order of tool priority, whatever the order in which the tools called gotcha_wrap. (Changing the priority later does not reorder existing stacks.)", "quantifier": "every history, every assignment of int priorities, every wrapping order", "why_tests_cant": "the repo tests only six permutations of three tools on one function", "anchors": ["src/gotcha.c: rewrite_wrapper_orders", "src/tool.c: get_priority", "include/gotcha/gotcha.h: gotcha_set_priority", "docs/api.rst"]}
{"id": "C03", "title": "Order among tools of equal priority", "statement": "docs/api.rst promises that tools of equal priority are wrapped FIFO with the first tool innermost. What the code guarantees is the opposite: among equal priorities the tool that wrapped first stays outermost and each later one goes inside it.", "quantifier": "every history, every function, every pair of tools of equal priority", "why_tests_cant": "an ordering claim over all histories; the corresponding repo tests (221, 122) are commented out", "anchors": ["src/gotcha.c: rewrite_wrapper_orders", "docs/api.rst", "test/priority/CMakeLists.txt"]}
{"id": "C04", "title": "gotcha_get_wrappee returns the next function inward", "statement": "For every binding whose handle variable is used by no other binding, gotcha_get_wrappee(handle) is the wrapper of the next tool inward on that function's stack, or the real function for the innermost one; it is never the binding's own wrapper and following it repeatedly never cycles.", "quantifier": "every reachable state, every binding of every tool", "why_tests_cant": "cycles and mislinks only show for particular interleavings of wraps; the state space is unbounded", "anchors": ["src/gotcha.c: gotcha_get_wrappee, setInternalBindingAddressPointer, insert_at_head, insert_after_pos"]}
{"id": "C05", "title": "Wrapping the same binding table again is harmless", "statement": "Calling gotcha_wrap twice with the same gotcha_binding_t table should leave gotcha_get_wrappee(handle) pointing past the wrapper (the code even has a 'tool is already inserted' check). Refuted, in general: after any history, a gotcha_wrap whose bindings were all wrapped before makes gotcha_get_wrappee(handle) return the wrapper itself, so that no call through a wrapper of the table, nor through a slot of its functions, ever reaches a real function.", "quantifier": "all processes, all histories and all tables of bindings wrapped earlier in them", "why_tests_cant": "requires the link structure of shared handles across histories; repo tests re-wrap but never call afterwards", "anchors": ["src/gotcha.c: rewrite_wrapper_orders (already-inserted check), insert_after_pos", "src/tool.c: add_binding_to_tool"]}
{"id": "C06", "title": "The real function is the first exported definition in link-map order", "statement": "When gotcha_wrap (or a later dlopen) resolves f, the function handed to the innermost wrapper is the definition of f in the first library of the link map, vdso excluded, that exports f with non-zero size, at that library's load address plus the symbol value.", "quantifier": "every link map, every symbol table, every name", "why_tests_cant": "ranges over all link maps and symbol tables", "anchors": ["src/gotcha.c: prepare_symbol, lookup_exported_symbol"]}
{"id": "C07", "title": "gotcha_wrap's return code reports unresolved functions", "statement": "gotcha_wrap returns GOTCHA_FUNCTION_NOT_FOUND exactly when some requested function that had never been requested before is exported by no loaded library, and GOTCHA_SUCCESS otherwise. (A user would expect it for every unresolved function: a second tool wrapping the same missing function gets GOTCHA_SUCCESS.)", "quantifier": "every history, every binding table, every link map", "why_tests_cant": "an if-and-only-if over all histories and link maps", "anchors": ["src/gotcha.c: gotcha_wrap, prepare_symbol", "include/gotcha/gotcha_types.h"]}
{"id": "C08", "title": "Functions missing at wrap time are bound by a later dlopen", "statement": "A function that no library exported when it was wrapped is resolved by the first intercepted dlopen after which some loaded library exports it: from then on the innermost wrapper's gotcha_get_wrappee returns that definition. Functions still missing stay pending and are retried by every later dlopen; none is forgotten or resolved twice.", "quantifier": "every history of wraps and dlopens, every number of pending names", "why_tests_cant": "depends on iteration-with-deletion over a hash table in every layout", "anchors": ["src/gotcha_dl.c: dlopen_wrapper, per_binding", "src/hash.c: foreach_hash_entry, removefrom_hashtable"]}
{"id": "C09", "title": "Libraries loaded by an intercepted dlopen are fully rewired", "statement": "When an intercepted dlopen returns, every GOT slot of every loaded library (old and newly loaded) whose relocation names a wrapped function holds the outermost wrapper of that function.", "quantifier": "every history, every set of newly loaded libraries", "why_tests_cant": "ranges over all histories; a skipped library is silent", "anchors": ["src/gotcha_dl.c: dlopen_wrapper", "src/gotcha.c: update_all_library_gots, update_library_got"]}
{"id": "C10", "title": "GOT rewriting touches nothing else", "statement": "gotcha_wrap and dlopen change no memory word of the target libraries other than GOT slots whose relocation names a wrapped function, and write into such a slot only wrapper addresses supplied for that function.", "quantifier": "every history, every memory word", "why_tests_cant": "a frame property over all of memory and all relocation tables", "anchors": ["src/gotcha.c: update_lib_bindings, writeAddress", "src/elf_ops.h: FOR_EACH_PLTREL"]}
{"id": "C11", "title": "Library filters keep rejected libraries untouched", "statement": "A library rejected by the active library filter during every gotcha_wrap and dlopen keeps every word of its GOT exactly as the loader left it, for the built-in filters (by name, last only) and for any user supplied filter function.", "quantifier": "every history, every filter function, every library", "why_tests_cant": "ranges over all user filter functions and histories", "anchors": ["src/library_filters.c", "src/gotcha.c: update_library_got"]}
{"id": "C12", "title": "Re-admitting a filtered library restores interception", "statement": "A library that was filtered out while f was wrapped should have its calls to f intercepted once the filter is restored and a later gotcha_wrap or dlopen processes it. Refuted: a later gotcha_wrap of another function marks it up to date without writing f's slot, and dlopen then skips it.", "quantifier": "every history of filter changes, wraps and dlopens", "why_tests_cant": "needs particular interleavings of three APIs", "anchors": ["src/gotcha.c: update_library_got", "src/library_filters.c"]}
{"id": "C13", "title": "Wrapping main goes through __libc_start_main", "statement": "After a tool of default priority wraps main, the entry point the C runtime start-up routine is given runs the tool's main wrapper (all such tools in stack order) and then the program's real main.", "quantifier": "every number of tools wrapping main, every history before it", "why_tests_cant": "start-up runs once per process; a test sees one configuration", "anchors": ["src/translations.c: gotcha_internal_libc_start_main, gotcha_internal_main", "src/gotcha.c: rewrite_wrapper_orders"]}
{"id": "C14", "title": "Wrapping main together with other functions intercepts all of them", "statement": "A single gotcha_wrap call whose table contains main and another function f should intercept f as well. Refuted: the nested wraps performed for main mark every library up to date first, so f's slots are never written.", "quantifier": "every table that contains main", "why_tests_cant": "depends on the nested generation counters", "anchors": ["src/gotcha.c: rewrite_wrapper_orders, gotcha_wrap, update_library_got"]}
{"id": "C15", "title": "Interception survives dlclose and re-dlopen", "statement": "A library that is dlclosed and dlopened again should have its calls intercepted as on first load. Refuted when the loader reuses the link_map address for the same file: the stale library record says up to date, so the new GOT is skipped. Holds when another object, with another name hash, takes the address.", "quantifier": "every history with dlclose and address reuse", "why_tests_cant": "depends on allocator address reuse in the loader", "anchors": ["src/gotcha_utils.c: get_library, remove_library", "src/gotcha.c: update_library_got"]}
{"id": "C16", "title": "Libraries that were loaded without GOTCHA seeing it are still intercepted", "statement": "A library that was loaded without passing through GOTCHA's dlopen (loader-internal dlopen, or constructors calling gotcha_wrap before dlopen returns) should have all wrapped functions intercepted after the next intercepted dlopen. Refuted: an intervening gotcha_wrap marks it up to date with only its own bindings.", "quantifier": "every interleaving of silent loads, wraps and dlopens", "why_tests_cant": "needs a particular interleaving of loader and API activity", "anchors": ["src/gotcha.c: update_library_got", "src/gotcha_dl.c: dlopen_wrapper"]}
{"id": "C17", "title": "dlsym hands out the wrapper of a wrapped function", "statement": "Intercepted dlsym(handle, f), for f wrapped by exactly one tool and resolved, returns that tool's wrapper whenever the real dlsym would return the wrapped function or NULL, and the real dlsym's result when it is a different function of the same name. With two or more tools on f a user expects the outermost wrapper; refuted: for every such history the raw function found by the real dlsym is returned, bypassing all wrappers.", "quantifier": "every handle, name, stack depth and real dlsym behaviour", "why_tests_cant": "ranges over all stacks and all dlsym results", "anchors": ["src/gotcha_dl.c: dlsym_wrapper"]}
{"id": "C18", "title": "dlsym is transparent for functions nobody wrapped", "statement": "For a name that no tool wrapped and a handle other than RTLD_NEXT, intercepted dlsym returns exactly what the real dlsym returns.", "quantifier": "every name, handle, history", "why_tests_cant": "all names and histories", "anchors": ["src/gotcha_dl.c: dlsym_wrapper"]}
{"id": "C19", "title": "RTLD_NEXT searches after the caller's library", "statement": "Intercepted dlsym(RTLD_NEXT, f) for an unwrapped f resolves f in the first library after the caller's own library in link-map order that exports f, and returns NULL if there is none; the caller's library is the one with a loadable segment containing the return address.", "quantifier": "every link map, segment layout and return address", "why_tests_cant": "ranges over all address layouts", "anchors": ["src/gotcha_dl.c: gotchas_dlsym_rtld_next_lookup, lib_header_callback, dlsym_wrapper"]}
{"id": "C20", "title": "Priority set and get agree", "statement": "After gotcha_set_priority(t, v) every gotcha_get_priority(t) returns GOTCHA_SUCCESS and v until t's priority is set again, whatever other tools do in between; a tool that only ever called gotcha_wrap reports -1; a name never used reports GOTCHA_INVALID_TOOL and leaves the output untouched.", "quantifier": "every history, tool name and int value", "why_tests_cant": "histories and names are unbounded", "anchors": ["src/gotcha.c: gotcha_set_priority, gotcha_get_priority, gotcha_configure_int", "src/tool.c: get_tool, create_tool, reorder_tool, remove_tool_from_list, get_configuration_value"]}
{"id": "C21", "title": "The registered tools form a duplicate-free list ordered by priority", "statement": "After any history the tool list contains every tool name ever passed to gotcha_wrap or gotcha_set_priority exactly once, is acyclic, and is ordered by non-decreasing priority; re-prioritising a tool neither drops nor duplicates any tool.", "quantifier": "every history", "why_tests_cant": "pointer-list surgery errors show only for specific positions and lengths", "anchors": ["src/tool.c: reorder_tool, remove_tool_from_list, create_tool, get_tool_list"]}
{"id": "C22", "title": "Bindings are attributed to the named tool", "statement": "gotcha_wrap under a name uses the priority of the tool of that name, creating it with the default priority on first use; a NULL name means the tool \"[UNSPECIFIED]\"; different spellings are different tools.", "quantifier": "every tool name including NULL and every history", "why_tests_cant": "names are unbounded", "anchors": ["src/gotcha.c: gotcha_wrap", "src/tool.c: get_tool, create_tool"]}
{"id": "C23", "title": "The API never faults on well-formed clients", "statement": "One expects that no history of API calls made with non-NULL names, handles and filters on well-formed ELF images leads GOTCHA itself to a null or wild dereference, a division by zero, a write to a non-writable page or an endless loop. That is refuted in one case: an intercepted dlopen that loads an object for which GOTCHA has a stale record saying its GOT is writable does not return when a slot for a wrapped function is read-only. When objects that are loaded again have writable slots, no history of well-behaved clients faults; with arbitrary clients the only fault is an intercepted dlopen that has no function to forward to.", "quantifier": "every history over well-formed inputs", "why_tests_cant": "absence of faults is universal over histories", "anchors": ["src/gotcha.c", "src/tool.c", "src/hash.c", "src/gotcha_utils.c", "src/gotcha_dl.c"]}
{"id": "C24", "title": "A handle never exposes an indeterminate pointer", "statement": "After gotcha_wrap returns, gotcha_get_wrappee(handle) should be either the next function inward or NULL. Refuted: for a function that is not found the wrappee field is never initialised, so an indeterminate pointer is returned until a dlopen resolves it. Exactly one handle of each unresolved function is indeterminate, and no handle of a resolved one.", "quantifier": "every binding after every history", "why_tests_cant": "heap contents are arbitrary; a test sees fresh zeroed memory", "anchors": ["src/tool.c: add_binding_to_tool", "src/gotcha.c: gotcha_wrap, gotcha_get_wrappee"]}
{"id": "C25", "title": "Inserting a tool is atomic for concurrent callers", "statement": "While gotcha_wrap inserts the wrapper of a tool for a function (listed once in its table), a thread that calls the function, with its loads placed at arbitrary points between GOTCHA's memory writes, runs either the complete old stack or the complete new stack, never a truncated, looping or uninitialised one. Refuted for a table that is passed twice: the handles are set to NULL first, and a concurrent call dereferences NULL.", "quantifier": "every history, every table, every interleaving of the loads of a caller with the stores of gotcha_wrap (sequentially consistent memory), every stack depth and position", "why_tests_cant": "scheduling points cannot be enumerated by testing", "anchors": ["src/gotcha.c: insert_at_head, insert_after_pos, gotcha_wrap, update_lib_bindings"]}
{"id": "C26", "title": "Skipping an up-to-date library never loses a wrapper", "statement": "A library whose GOT processing is skipped because it is marked up to date already has every slot that the skipped pass would write holding the value it would write (histories with a fixed accept-all filter, no dlclose, no silent loads, and main wrapped only on its own).", "quantifier": "every history of that kind", "why_tests_cant": "a relation between a counter and all GOT slots over all histories", "anchors": ["src/gotcha.c: update_library_got, current_generation"]}
{"id": "C27", "title": "Each loaded library has its own bookkeeping record", "statement": "One expects the per-library record (generation, writable flag) found for a link_map to be always the one created for that link_map. That holds when no two loaded libraries collide in the 32-bit hash. It is refuted for colliding ones because the key comparison is an ordering test. In any execution, whatever the hashes, the record found for an object is that of an object with the same hash and the same or a larger link_map address, and an object gets a record of its own exactly when no object with a record is in that relation to it.", "quantifier": "every set of link_map addresses and names, every history", "why_tests_cant": "requires a 32-bit hash collision", "anchors": ["src/gotcha_utils.c: link_map_cmp, link_map_hash, get_library, add_library"]}
{"id": "C28", "title": "The hash table behaves as a map", "statement": "Starting from a freshly created table, for every sequence of additions of absent keys, removals and lookups, each lookup returns the data most recently added for the key and not removed since, and reports absence otherwise; a removal reports -1 exactly for absent keys. The string hash is Bernstein's polynomial in the (signed) characters modulo 2^32.", "quantifier": "every operation sequence, key set, hash function and collision pattern", "why_tests_cant": "collision and tombstone patterns are unbounded", "anchors": ["src/hash.c: create_hashtable, addto_hashtable, lookup_hashtable, removefrom_hashtable"]}
{"id": "C29", "title": "Insertion always finds a slot and the table grows in time", "statement": "In every reachable table the entry count equals the number of stored entries, is at most half the size plus one, and every addition stores its entry without overwriting another; probing always terminates.", "quantifier": "every operation sequence", "why_tests_cant": "boundary of the growth condition for all sizes", "anchors": ["src/hash.c: addto_hashtable, insert, grow_hashtable"]}
{"id": "C30", "title": "Growing the table preserves its contents", "statement": "grow_hashtable to any size larger than the number of entries keeps exactly the same key/data associations.", "quantifier": "every table and new size", "why_tests_cant": "all layouts", "anchors": ["src/hash.c: grow_hashtable"]}
{"id": "C31", "title": "Iteration visits every entry once, even while deleting", "statement": "foreach_hash_entry calls back exactly once for every stored entry, also when the callback removes the entry it is visiting (as dlopen does).", "quantifier": "every table layout, every subset of entries deleted by the callback", "why_tests_cant": "list surgery during iteration for every layout", "anchors": ["src/hash.c: foreach_hash_entry, removefrom_hashtable", "src/gotcha_dl.c: per_binding"]}
{"id": "C32", "title": "Adding a key twice", "statement": "A user of addto_hashtable may expect a second addition of the same key to replace the first. Refuted: both stay stored, and which one a lookup returns depends on unrelated keys (removal of a colliding key or growth of the table flips it). What holds: a lookup always returns the data of one of the stored additions of the key and fails only when there is none, and a removal deletes exactly one of them. As long as nothing is removed and the table does not grow, the first addition is the one found.", "quantifier": "every table layout", "why_tests_cant": "depends on tombstone placement", "anchors": ["src/hash.c: insert, lookup"]}
{"id": "C33", "title": "Allocations never overlap", "statement": "Every non-NULL gotcha_malloc(n) result is 8-byte aligned, has at least n usable bytes inside memory obtained from mmap, and its bytes are disjoint from those of every other live allocation and from all allocator headers.", "quantifier": "every sequence of malloc, free and realloc, every size below 2^63, every placement of mmap regions", "why_tests_cant": "all allocation histories", "anchors": ["src/libc_wrappers.c: gotcha_malloc, gotcha_free, split_allocation"]}
{"id": "C34", "title": "The allocator neither loses nor invents memory", "statement": "At all times the live allocations, the free list blocks and their headers exactly tile the memory obtained from mmap, and the free list is acyclic and disjoint from live blocks.", "quantifier": "every history", "why_tests_cant": "global tiling over all histories", "anchors": ["src/libc_wrappers.c: gotcha_malloc, gotcha_free, split_allocation"]}
{"id": "C35", "title": "realloc preserves contents", "statement": "gotcha_realloc(p, n) returns a live block of at least n bytes whose first min(old, new) bytes equal the old contents, and leaves all other live blocks' contents unchanged; on out-of-memory it returns NULL and p stays valid.", "quantifier": "every history, size and contents", "why_tests_cant": "all contents and layouts", "anchors": ["src/libc_wrappers.c: gotcha_realloc, gotcha_memcpy"]}
{"id": "C36", "title": "malloc takes the tightest free block", "statement": "When some free block is large enough, gotcha_malloc reuses one of minimal sufficient size and does not call mmap; it calls mmap only when none fits, and then asks for the size plus header rounded up to whole pages.", "quantifier": "every free list and size", "why_tests_cant": "all free lists", "anchors": ["src/libc_wrappers.c: gotcha_malloc"]}
{"id": "C37", "title": "malloc rejects impossible sizes", "statement": "gotcha_malloc(n) for n near SIZE_MAX should fail. Refuted: the last 7 sizes are rounded to 0 and a tiny block is returned; 2^64-8 takes any free block; sizes less than a page below that get an area of one page and a header is written below it. For every size from 2^63 on, the length asked of mmap is given exactly.", "quantifier": "every size_t value", "why_tests_cant": "extreme values at wrap-around", "anchors": ["src/libc_wrappers.c: gotcha_malloc"]}
{"id": "C38", "title": "Client writes cannot corrupt the allocator", "statement": "Writing arbitrary bytes inside live allocations changes no allocator header or free-list link, so subsequent allocator behaviour is unaffected.", "quantifier": "every live set and every written contents", "why_tests_cant": "all contents", "anchors": ["src/libc_wrappers.c: malloc_header_t, malloc_link_t, gotcha_malloc, gotcha_free"]}
{"id": "C39", "title": "String equality is exact", "statement": "gotcha_strcmp returns 0 exactly when the two C strings are equal, and gotcha_strncmp(a,b,n) exactly when they agree up to n characters or a common terminator. (It is not an ordering: gotcha_strcmp(\"a\",\"ab\") and its swap are both positive.)", "quantifier": "all strings and lengths", "why_tests_cant": "all strings", "anchors": ["src/libc_wrappers.c: gotcha_strcmp, gotcha_strncmp"]}
{"id": "C40", "title": "Substring search", "statement": "gotcha_strstr(h, n) is non-NULL exactly when n is non-empty and occurs in h. The returned pointer should point into h at the first occurrence; refuted: it points into n's buffer.", "quantifier": "all strings", "why_tests_cant": "all strings, overlapping prefixes", "anchors": ["src/libc_wrappers.c: gotcha_strstr", "src/library_filters.c: trueIfNameMatches"]}
{"id": "C41", "title": "String lengths", "statement": "gotcha_strlen returns the index of the first NUL; gotcha_strnlen(s, n) returns min(strlen, n) but reads s[n] as well, one byte more than permitted.", "quantifier": "all strings, all n", "why_tests_cant": "all strings and buffer ends", "anchors": ["src/libc_wrappers.c: gotcha_strlen, gotcha_strnlen"]}
{"id": "C42", "title": "Environment lookup", "statement": "gotcha_getenv(name) returns the value of the first environment entry of the form name=value and NULL when there is none; entries of which name is only a prefix are not matched.", "quantifier": "all environments and names", "why_tests_cant": "all environments", "anchors": ["src/libc_wrappers.c: gotcha_getenv"]}
{"id": "C43", "title": "Number parsing", "statement": "gotcha_atoi of k minus signs followed by decimal digits and a non-digit returns (-1)^k times the number whenever no int overflow is possible (at most 9 digits), and the value modulo 2^32 under wrap-around arithmetic otherwise; trailing text is ignored.", "quantifier": "all strings", "why_tests_cant": "all digit strings", "anchors": ["src/libc_wrappers.c: gotcha_atoi"]}
{"id": "C44", "title": "Number formatting", "statement": "The decimal and hexadecimal renderings used by gotcha_int_printf denote exactly the given value, have no leading zeros, use the requested letter case, and fit in the 64-byte scratch buffers for every unsigned 64-bit value and every signed one but the smallest; reading a rendering back gives the number. With a buffer of any other size the text is stored whole or the buffer is left alone. A user expects this of the smallest signed value too; refuted: slong_to_str negates it, a signed overflow.", "quantifier": "all 64-bit values", "why_tests_cant": "2^64 values", "anchors": ["src/libc_wrappers.c: ulong_to_str, ulong_to_hexstr, slong_to_str", "src/gotcha_auxv.c: read_hex"]}
{"id": "C45", "title": "gotcha_int_printf formats correctly", "statement": "For every format made of literal text, the supported directives and unknown directives (printed back without their size), gotcha_int_printf returns the number of characters of the expected rendering, and writes exactly that rendering when it has at most 4096 characters.", "quantifier": "all formats, arguments and lengths", "why_tests_cant": "all formats and arguments", "anchors": ["src/libc_wrappers.c: gotcha_int_printf, add_to_buffer"]}
{"id": "C46", "title": "Long messages are printed intact", "statement": "gotcha_int_printf should print renderings longer than 4096 characters intact. Refuted: at every multiple of 4096 the character is replaced by the first character of the message.", "quantifier": "all lengths", "why_tests_cant": "only beyond 4096 characters, excluded from coverage", "anchors": ["src/libc_wrappers.c: add_to_buffer"]}
{"id": "C47", "title": "Memory copy and fill", "statement": "gotcha_memcpy on non-overlapping ranges makes the destination equal to the source and changes nothing else; gotcha_memset fills exactly n bytes with the low byte of c.", "quantifier": "all addresses, sizes and contents", "why_tests_cant": "all layouts", "anchors": ["src/libc_wrappers.c: gotcha_memcpy, gotcha_memset"]}
{"id": "C48", "title": "gotcha_strncat appends and terminates", "statement": "For disjoint buffers with n readable bytes at s and n+1 writable bytes after d, gotcha_strncat(d, s, n) makes d the concatenation of d and the first n characters of s, NUL-terminated, and changes nothing outside the n+1 bytes. It should touch at most min(n, strlen(s))+1 bytes; refuted: it always copies n bytes, reading past s and writing past the terminator, and faults if any of these is not mapped.", "quantifier": "all strings and n", "why_tests_cant": "all strings and buffer sizes", "anchors": ["src/libc_wrappers.c: gotcha_strncat"]}
{"id": "C49", "title": "GNU hash lookup finds the newest version of an exported symbol", "statement": "On a well-formed GNU hash section, the lookup of a name of 7-bit characters (more generally, one whose hash over signed characters agrees with the ELF hash) returns -1 exactly when the name has no (versioned, non-local) definition and otherwise the index of a definition of that name with the highest version index; without version table, the first one. A user expects this of every name; refuted for names with bytes of 0x80 and above, which the code hashes as signed characters: if their number is not a multiple of 32 the lookup always returns -1.", "quantifier": "all well-formed symbol and hash tables, all names", "why_tests_cant": "all tables and collisions", "anchors": ["src/elf_ops.c: lookup_gnu_hash_symbol, gnu_hash_func"]}
{"id": "C50", "title": "SysV hash lookup finds the newest version of an exported symbol", "statement": "Same for the DT_HASH section.", "quantifier": "all well-formed symbol and hash tables, all names", "why_tests_cant": "all tables and collisions", "anchors": ["src/elf_ops.c: lookup_elf_hash_symbol, elf_hash"]}
{"id": "C51", "title": "Symbol lookup reads only inside the tables", "statement": "On well-formed tables neither lookup reads outside the bucket, chain, symbol or version arrays and both terminate.", "quantifier": "all well-formed tables, all names", "why_tests_cant": "all tables", "anchors": ["src/elf_ops.c: lookup_gnu_hash_symbol, lookup_elf_hash_symbol"]}
{"id": "C52", "title": "Every call-site relocation of a library is considered", "statement": "For a library with a PLT relocation table, GOT rewriting visits every entry of its PLT relocation table and of the main relocation table of the same format. A user expects this of every library; refuted for libraries without DT_PLTREL (e.g. -fno-plt), whose DT_RELA relocations are ignored.", "quantifier": "all dynamic sections and relocation tables", "why_tests_cant": "all dynamic sections", "anchors": ["src/elf_ops.h: INIT_DYNAMIC, FOR_EACH_PLTREL, FOR_EACH_PLTREL_INT"]}
{"id": "C53", "title": "GOT pages are made writable before being written", "statement": "The ranges passed to mprotect are page aligned and cover the whole RELRO region of the library and the page of its PLT GOT, and contain no page beyond those and the rounded relocation size; whether they are merged or separate calls. For a library without DT_PLTGOT no page at all is made writable.", "quantifier": "all addresses, sizes and power-of-two page sizes without address wrap", "why_tests_cant": "all layouts; several branches are excluded from coverage", "anchors": ["src/gotcha.c: mark_got_writable, find_relro_boundary", "src/gotcha_utils.h: BOUNDARY_BEFORE"]}
{"id": "C54", "title": "The RELRO region used is that of the library being patched", "statement": "The region looked up for a library is the PT_GNU_RELRO segment of the loaded object with the same name and load address, if it has one, and none otherwise.", "quantifier": "all program header tables", "why_tests_cant": "all loaded object lists", "anchors": ["src/gotcha.c: find_relro_boundary, mark_got_writable"]}
{"id": "C55", "title": "Auxiliary vector parsing is independent of read chunking", "statement": "For a terminated auxiliary vector of at most 4096 bytes the page size and vdso address found are those of the last matching entries before AT_NULL, however read() splits the data and however often it is interrupted.", "quantifier": "all vectors, all sequences of short and interrupted reads", "why_tests_cant": "read() chunkings are schedule dependent", "anchors": ["src/gotcha_auxv.c: parse_auxv_contents, get_auxv_pagesize", "src/libc_wrappers.c: gotcha_getpagesize"]}
{"id": "C56", "title": "vdso detection is stable", "statement": "is_vdso answers consistently for the whole process life: at most one link_map is ever classified as vdso, the answer for a link_map never changes, NULL is never the vdso, and the detection order is alias name, auxiliary vector, /proc/self/maps.", "quantifier": "every history of queries and link-map changes", "why_tests_cant": "histories", "anchors": ["src/gotcha_auxv.c: is_vdso, get_vdso_from_aliases, get_vdso_from_auxv, get_vdso_from_maps"]}
{"id": "C57", "title": "Memory map lines are parsed correctly", "statement": "For a line of /proc/self/maps of the kernel's format (hex-hex perms offset dev inode [name]) the parser extracts exactly the begin and end addresses and the name, and [vdso] is recognised by name only.", "quantifier": "all well-formed lines", "why_tests_cant": "all lines", "anchors": ["src/gotcha_auxv.c: read_hex, read_word, read_line, get_vdso_from_maps"]}
{"id": "C58", "title": "Version numbers order correctly", "statement": "GOTCHA_GET_VERSION is strictly monotone in (major, minor, patch) lexicographic order and the MAJOR, MINOR and PATCH macros recover the components, for minor < 1000 and patch < 100.", "quantifier": "all version triples in range", "why_tests_cant": "all triples", "anchors": ["cmake/gotcha_config.h.in"]}
{"id": "C59", "title": "Interrupted reads of /proc/self/maps", "statement": "Desirable: an interrupted read() of /proc/self/maps does not change what is found. Refuted: read_line advances its index on EINTR although nothing was stored, so for every file an interruption at the start of a line makes the parser read an uninitialised byte.", "quantifier": "all maps files", "why_tests_cant": "interruptions are schedule dependent", "anchors": ["src/gotcha_auxv.c: read_line, get_vdso_from_maps"]}
{"id": "C60", "title": "The auxiliary vector identifies the vdso", "statement": "Desirable: the link_map found through AT_SYSINFO_EHDR is the vdso. Refuted: get_vdso_from_auxv compares only the offset of the dynamic section, so any earlier library with its dynamic section at the same offset from its load address is taken for the vdso.", "quantifier": "all link maps and vectors", "why_tests_cant": "depends on the layout of all libraries loaded", "anchors": ["src/gotcha_auxv.c: get_vdso_from_auxv, is_vdso", "src/gotcha_auxv.c: vdso_aliases"]}
{"id": "C61", "title": "Short maps lines", "statement": "Desirable: a line of /proc/self/maps with fewer fields than expected is skipped. Refuted: for every line with a range of addresses and fewer than four words read_word stores through its NULL argument. The end of a path longer than the line buffer is parsed as such a line.", "quantifier": "all such lines", "why_tests_cant": "all lines", "anchors": ["src/gotcha_auxv.c: read_word, read_line, get_vdso_from_maps"]}
{"id": "C62", "title": "Debug level", "statement": "Without GOTCHA_DEBUG in the environment no message of any level is printed by debug_printf and error_printf; with it, whatever the value (even 0 or text), at least level 1 is active and the level is the leading number when positive; only the first matching entry counts, and a second initialisation changes nothing.", "quantifier": "all environments and memory contents", "why_tests_cant": "all environment contents, including malformed ones", "anchors": ["src/gotcha_utils.c: debug_init", "src/gotcha_utils.h: debug_printf, error_printf", "src/libc_wrappers.c: gotcha_getenv, gotcha_atoi"]}
{"id": "C63", "title": "List of library records", "statement": "After any sequence of add_library and remove_library the linked records, followed forwards or backwards, are exactly the records present in the table, newest first, each once, and no step dereferences a bad pointer (no two loaded objects with equal 32-bit hashes).", "quantifier": "all sequences of additions and removals", "why_tests_cant": "unbounded histories of a doubly linked list with an index", "anchors": ["src/gotcha_utils.c: add_library, remove_library, get_library"]}
{"id": "C64", "title": "Failed assertion message", "statement": "gotcha_assert_fail writes exactly file:line: function: Assertion `s' failed. and a newline, for every file, function, text and every 32-bit line number.", "quantifier": "all strings and line numbers", "why_tests_cant": "the program aborts", "anchors": ["src/libc_wrappers.c: gotcha_assert_fail, gotcha_int_printf"]}
{"id": "C65", "title": "autotee is transparent", "statement": "With the example tool autotee in place every sequence of output calls returns the same values and leaves the same bytes in every stream and descriptor of the application as without it, for all short writes and errors, as long as fwrite returns less than 2^31. Refuted above: for every fwrite returning 2^31 items or more the wrapper, which returns int, returns something else.", "quantifier": "all sequences of calls, all outcomes of the C library", "why_tests_cant": "all call sequences, all partial writes and errors", "anchors": ["src/example/autotee/autotee.c: printf_wrapper .. fwrite_wrapper"]}
{"id": "C66", "title": "autotee copies everything", "statement": "While the copy is open and all output is accepted, the copy receives exactly the bytes that stdout receives, in order, per stream and per descriptor. With short writes the copy receives repeated data although stdout does not (refutation of the unrestricted claim).", "quantifier": "all sequences of calls", "why_tests_cant": "all call sequences and all short writes", "anchors": ["src/example/autotee/autotee.c: printf_wrapper .. fwrite_wrapper"]}
{"id": "C67", "title": "autotee after closing", "statement": "Desirable: after close_autotee output goes to stdout alone. Refuted: every stream output call for stdout then uses the closed FILE, as does a second close_autotee; write and the calls for other streams are unaffected (fwrite as long as it returns less than 2^31).", "quantifier": "all calls after closing", "why_tests_cant": "use of a closed stream often works by accident", "anchors": ["src/example/autotee/autotee.c: close_autotee"]}
{"id": "C68", "title": "What a library missed stays missed", "statement": "gotcha_wrap of a table with a new function name marks every library that the filter lets through as up to date, whichever functions it wrote there. Until the next gotcha_wrap nothing, in particular no intercepted dlopen, writes into such a library again. So a slot that was missed before (library filtered out or loaded behind GOTCHA's back) stays unwrapped for functions wrapped earlier.", "quantifier": "all processes, all histories before and after the call, all libraries and slots", "why_tests_cant": "a statement about all later events, and about interleavings of loads, filters and calls that nobody would think of writing down", "anchors": ["src/gotcha.c: update_library_got, update_all_library_gots, gotcha_wrap", "src/gotcha_dl.c: dlopen_wrapper", "src/library_filters.c"]}
{"id": "C69", "title": "read_word respects the size of its buffer", "statement": "For a word of any length and a buffer of at least the size passed, read_word stores the longest prefix that leaves room for the terminator, writes nothing beyond the size and does not fault. The returned length counts all characters consumed if and only if the word is no longer than the buffer. If the size passed is larger than the buffer and the word does not fit, the buffer is overrun.", "quantifier": "all strings, word lengths and buffer sizes", "why_tests_cant": "the over-long branch is excluded from coverage and cannot be reached from /proc/self/maps", "anchors": ["src/gotcha_auxv.c: read_word"]}
{"id": "C70", "title": "The dynamic section is read tag by tag", "statement": "On every dynamic section ended by DT_NULL the macro INIT_DYNAMIC finds, for each of the fifteen tags of the ELF format it knows, the value of the last entry with that tag (0 for absent addresses and sizes, 1 for absent entry sizes), whatever the order of the entries and whatever other tags there are; entries behind DT_NULL are not read. Without a dynamic section it finds nothing. A relocation table whose entry size is 0 modulo 2^32 makes it divide by zero.", "quantifier": "all dynamic sections, of any length and order", "why_tests_cant": "the objects a test can link exercise a few layouts of one linker", "anchors": ["src/elf_ops.h: INIT_DYNAMIC"]}
{"id": "C71", "title": "read_hex reads exactly the digits that are there", "statement": "From any position read_hex consumes the longest run of the characters 0-9, a-f, A-F, returns its length and stores its value modulo 2^64, whatever character follows. Every 64-bit number printed by the library in hexadecimal, upper or lower case, is read back unchanged. A run of digits that reaches the end of the array is read beyond it.", "quantifier": "all strings and positions, all 64-bit numbers", "why_tests_cant": "the digits of /proc/self/maps in a test are those of one process; the digit boundaries (g, @, :) never occur there", "anchors": ["src/gotcha_auxv.c: read_hex", "src/libc_wrappers.c: ulong_to_hexstr"]}
{"id": "C72", "title": "read_line loses nothing", "statement": "For every file, buffer size of at least two and pattern of short reads, the strings delivered by successive calls of read_line are, one after the other, the bytes of the file. Each of them is a whole line or fills the buffer; only the last, for which -1 is returned, is an incomplete line. Nothing is written beyond the size passed. If read fails, -1 is returned and the string ends with the bytes read before.", "quantifier": "all files without NUL, all buffer sizes, all lengths of lines, all read sizes", "why_tests_cant": "the branch for lines longer than 4095 bytes is excluded from coverage", "anchors": ["src/gotcha_auxv.c: read_line"]}
{"id": "C73", "title": "Which wrappers of main run when the program starts", "statement": "When main is wrapped and the program exports it, the intercepted __libc_start_main calls on inward to the real one with its other arguments unchanged and, as main, a function whose call runs exactly the wrappers of the tools whose priority is not above that of GOTCHA's own tool (-1 by default), and then the program's main. Wrappers of tools of a higher priority are skipped; if all tools that wrap main have a higher priority, none runs at all. The main function that the start-up code passes is ignored.", "quantifier": "all processes, histories with settled priorities, tools and arguments", "why_tests_cant": "the test of main wrapping uses one tool of the default priority; the functions are excluded from coverage", "anchors": ["src/translations.c: gotcha_internal_libc_start_main, gotcha_internal_main", "src/gotcha.c: rewrite_wrapper_orders"]}
{"id": "C74", "title": "Wrapping main in a program that does not export it", "statement": "If a tool wraps main and no loaded object exports the symbol main (the usual case without -rdynamic), then one of the handles of main is indeterminate, and the call of the intercepted __libc_start_main never reaches a main function: not even the one that the start-up code passed to it.", "quantifier": "all processes and histories", "why_tests_cant": "the test programs are linked so that main is exported", "anchors": ["src/translations.c: gotcha_internal_libc_start_main", "src/gotcha.c: prepare_symbol"]}
{"id": "C75", "title": "A successful return under memory pressure is a complete one", "statement": "In an initialised process, whichever allocations fail: if gotcha_wrap of a table without a binding for main returns something other than GOTCHA_INTERNAL, the resulting state and return code are exactly those of a run in which no allocation fails; if it returns GOTCHA_INTERNAL, nothing was intercepted: memory, protections, wrapper stacks, unresolved names, library records, earlier bindings and the wrappees of all handles outside the table are unchanged. An intercepted dlopen that returns has done all it does with enough memory. With enough memory the engine never returns GOTCHA_INTERNAL. With enough memory gotcha_set_priority and gotcha_get_priority do what the engine without failures does.", "quantifier": "all states, tables, tools and all sets of failing allocations", "why_tests_cant": "every allocation may fail or not, in every state", "anchors": ["src/gotcha.c: gotcha_wrap", "src/tool.c: create_tool, add_binding_to_tool", "src/hash.c: create_hashtable, grow_hashtable", "src/gotcha_utils.c: add_library", "src/gotcha_dl.c: dlopen_wrapper"]}
{"id": "C76", "title": "Running out of memory is reported, not fatal", "statement": "A user expects gotcha_wrap and gotcha_set_priority to return GOTCHA_INTERNAL when memory runs out. Refuted: only the allocations of a new tool and of the hash table of its bindings are checked by gotcha_wrap; when the first allocation for an existing tool fails gotcha_wrap dereferences NULL, and gotcha_set_priority of a new tool dereferences NULL when the tool cannot be allocated.", "quantifier": "all states, tables, tools and failing allocations", "why_tests_cant": "allocation failures are not exercised", "anchors": ["src/tool.c: create_tool, add_binding_to_tool", "src/gotcha.c: gotcha_wrap, gotcha_configure_int, gotcha_set_priority"]}
{"id": "C77", "title": "A process whose first wrap succeeds intercepts dlopen", "statement": "A user expects that after a successful gotcha_wrap libraries loaded later are covered. Refuted when the allocation of GOTCHA's own tool fails during initialisation: the failure is ignored, initialisation counts as done for good, gotcha_wrap returns GOTCHA_SUCCESS, and dlopen is never intercepted.", "quantifier": "all initial states and all oracles in which that allocation fails", "why_tests_cant": "allocation failures are not exercised", "anchors": ["src/gotcha_utils.c: gotcha_init, setup_hash_tables", "src/gotcha_dl.c: handle_libdl"]}
{"id": "C78", "title": "Every gotcha_wrap reaches the libraries", "statement": "gotcha_wrap for a function that was not wrapped before should redirect the calls of every loaded library. Refuted when the 32-bit generation counter comes back to the value in the library records: after a gotcha_wrap that brought the libraries up to date and 2^32 - 1 calls of gotcha_wrap with empty tables (each moves the counter, none looks at the libraries), a gotcha_wrap for any further functions writes nothing into those libraries and still reports success.", "quantifier": "all processes, histories, tables and numbers of calls that make the counter return", "why_tests_cant": "needs 2^32 calls", "anchors": ["src/gotcha.c:gotcha_wrap", "src/gotcha.c:update_library_got", "src/gotcha_utils.c:current_generation"]}
{"id": "C79", "title": "gotcha_wrap copies what it needs", "statement": "A user who passes gotcha_wrap a table (or a tool name) in a local variable expects GOTCHA to have copied it. Refuted: GOTCHA keeps the addresses of the rows and of the name. After any history, an intercepted dlopen writes into the slots of a new library whatever is in the row of the outermost binding at that time, and a tool whose name buffer is overwritten is not found under its old name any more while a tool of the new name is the old tool.", "quantifier": "all processes, histories, rows, new contents, libraries, tools and names", "why_tests_cant": "tests use static tables and string literals", "anchors": ["src/tool.c:create_tool", "src/tool.c:add_binding_to_tool", "src/gotcha.c:update_lib_bindings"]}
{"id": "C80", "title": "Loading a library is atomic for concurrent callers", "statement": "While an intercepted dlopen looks for the pending functions and rewrites the GOTs, a thread that calls a function through any GOT slot (of the new library or of an older one), with its loads placed at arbitrary points between GOTCHA's memory writes, runs either what a call made when the loader was done runs (the unwrapped function of the new library, or the complete stack) or the complete stack of wrappers ending in the real function; it never reaches a wrapper whose wrappee is not set yet.", "quantifier": "every history, every load, every function whose real function is known at the end of the dlopen (for slots of old libraries: before it), every slot, every interleaving of the loads of a caller with the stores of the dlopen wrapper (sequentially consistent memory)", "why_tests_cant": "the interleavings are not under a test's control", "anchors": ["src/gotcha_dl.c:dlopen_wrapper", "src/gotcha_dl.c:per_binding", "src/gotcha.c:update_all_library_gots", "src/gotcha.c:update_lib_bindings"]}
{"id": "C81", "title": "Debug messages tell the truth", "statement": "At debug level 1 gotcha_wrap, once GOTCHA is in use and for a table without main, reports, in this order, the call, once each the functions of its table that are registered for the first time and that no loaded object exports, and success or exactly their number; a tool is reported as new exactly when it is named for the first time; gotcha_set_priority and an intercepted dlopen report likewise. But the text is wrong (refuted): 'Symbol %s was found in program' is printed exactly for functions that were not found; in every execution no loaded object exports a symbol so reported.", "quantifier": "every process, history, table, tool, priority and load", "why_tests_cant": "tests do not check the debug output; which symbols are reported depends on the whole history", "anchors": ["src/gotcha.c:prepare_symbol", "src/gotcha.c:gotcha_wrap", "src/gotcha.c:gotcha_set_priority", "src/gotcha_dl.c:dlopen_wrapper", "src/gotcha_dl.c:per_binding", "src/tool.c:get_tool", "src/tool.c:create_tool"]}
{"id": "C82", "title": "Debug output is harmless", "statement": "Printing the level 1 messages does not change what GOTCHA does, and every message without NULL strings is printed as exactly one line with thread, process, place and text (up to 4096 characters). Refuted for NULL strings in the build without libc: every gotcha_wrap call with a NULL tool name (documented default) and every dlopen(NULL) read through the NULL pointer when GOTCHA_DEBUG is set.", "quantifier": "every state, message, thread id, process id; every history for the NULL tool name", "why_tests_cant": "the number of messages and arguments is unbounded; the tests use libc's printf, which prints (null)", "anchors": ["src/gotcha_utils.h:debug_printf", "src/libc_wrappers.c:gotcha_int_printf", "src/libc_wrappers.c:add_to_buffer", "src/gotcha.c:gotcha_wrap", "src/gotcha_dl.c:dlopen_wrapper"]}
{"id": "C83", "title": "Pointers to wrapped functions keep their wrappers", "statement": "A pointer to a wrapped function, read from a GOT slot after some history and called after any continuation of it, runs every wrapper that was registered when it was read, each once and in the same order, possibly with later ones in between, and then the real function; it runs exactly the inner part of the present stack, starting at the wrapper it points to. The documentation's promise that function pointers created after wrapping are wrapped holds only for those tools (refuted for all tools): a tool that later comes outside is not run through the pointer.", "quantifier": "every process, history, continuation, function, slot", "why_tests_cant": "needs all pairs of a history and a continuation; the tests call pointers at once", "anchors": ["src/gotcha.c:rewrite_wrapper_orders", "src/gotcha.c:update_lib_bindings", "docs/limitations.rst"]}
{"id": "C84", "title": "A function found with dlsym can be called", "statement": "A program that probes for an optional function with dlsym, and gets a non-NULL answer, can call it. Refuted: for every history in which some tool asked for a function that no library has, the intercepted dlsym returns a wrapper where the real one returns NULL; a call of it runs all wrappers and then jumps through an indeterminate pointer. If the real dlsym does find such a function and one tool wrapped it, dlsym compares its address with an indeterminate pointer.", "quantifier": "every process, history, handle, real dlsym, caller", "why_tests_cant": "depends on what was never found in the whole history; the tests only probe functions that exist", "anchors": ["src/gotcha_dl.c:dlsym_wrapper", "src/gotcha.c:gotcha_get_wrappee"]}
{"id": "C85", "title": "RTLD_NEXT of a wrapped function leads past the caller", "statement": "What dlsym(RTLD_NEXT, f) returns for a wrapped f leads to a definition in a library after the caller's. Refuted: if the real RTLD_NEXT lookup, made from GOTCHA's own code, finds the function the one tool wrapped, every caller gets the wrapper, and it leads to that function even if it is the caller's own, so that an interposing library calls itself. Otherwise the wrappers are bypassed and the first exporting library after the caller's is used.", "quantifier": "every process, history, caller address, real dlsym", "why_tests_cant": "depends on the relative order of GOTCHA, the caller and the definition in the link map", "anchors": ["src/gotcha_dl.c:dlsym_wrapper", "src/gotcha_dl.c:gotchas_dlsym_rtld_next_lookup"]}
{"id": "C86", "title": "The GOTCHA layer is the lowest one", "statement": "docs/api.rst: the lowest layer is the system call, followed by the GOTCHA layer and finally other tools based on priority. Refuted: for dlopen and dlsym, which GOTCHA wraps itself, exactly the tools whose priority is higher than that of GOTCHA's own tool (-1, the default of every tool) run outside GOTCHA's wrapper; all others, in particular those with the default priority, run between it and the system's function.", "quantifier": "every process, every history with settled priorities, every slot of dlopen and dlsym", "why_tests_cant": "no test wraps dlopen or dlsym by tools of several priorities; the claim is about all histories", "anchors": ["src/gotcha.c:gotcha_init", "src/gotcha_dl.c:handle_libdl", "src/tool.c:create_tool", "docs/api.rst"]}
{"id": "C87", "title": "Interception of a library does not depend on other libraries", "statement": "If a library is let pass by every filter ever set, is loaded before GOTCHA is used or by an intercepted dlopen, and is not loaded twice, then all its GOT slots of a wrapped function run the whole stack, in priority order if the priorities are settled, even if other libraries are filtered out for some time, are loaded behind GOTCHA's back or are unloaded and loaded again. With gotcha_filter_libraries_by_name(t) called first, the libraries whose names contain t are intercepted in full and all words of the others stay as the loader left them.", "quantifier": "every process, every history, every set of libraries treated well, every function and slot", "why_tests_cant": "ranges over all histories of filters, loads and unloads of unrelated libraries", "anchors": ["src/gotcha.c:update_all_library_gots", "src/gotcha.c:update_library_got", "src/library_filters.c"]}
{"id": "C88", "title": "A refused mprotect never leaves a call site unpatched, it crashes the process", "statement": "Whatever the protections of the pages and whichever mprotect calls fail, a sequence of events either ends with SIGSEGV in GOTCHA's write to a GOT slot or has exactly the outcome (memory, handles, return codes) it would have if every page were writable. So as long as the calls return, every call site is intercepted. When a slot of a wrapped function is read-only, not covered by a successful mprotect and not yet patched, gotcha_wrap and an intercepted dlopen do not return an error as the error message suggests: the process gets SIGSEGV.", "quantifier": "every process, every page protection, every pattern of mprotect failures, every sequence of events", "why_tests_cant": "mprotect does not fail in a test environment, and the claim compares two executions for all protections", "anchors": ["src/gotcha.c:mark_got_writable", "src/gotcha.c:update_library_got", "src/gotcha.c:update_lib_bindings"]}
{"id": "C89", "title": "A call that overlaps any number of operations still runs a sound stack", "statement": "Once GOTCHA is in use, one thread may go on registering tools, changing priorities and loading or closing libraries while another thread is in the middle of a call of a function f through a GOT slot of an object that stays loaded. No table lists f twice or makes GOTCHA wrap main for the first time, and the real function of f is known whenever f is wrapped. The call may read the slot during one operation and a wrappee several operations later. It always completes without reading an invalid handle or wrappee. It runs every wrapper that was registered before the first of these operations, none that is not registered at their end, in the order of the final stack and none twice, and then the real function; a call that found f unwrapped may also just run f. This is as much as holds: a call can run a combination of wrappers that was never the stack at any one moment.", "quantifier": "every history, every further sequence of operations, every object, slot and function, every interleaving of the reads of the call with the stores of the operations", "why_tests_cant": "the interleavings are unbounded in number and length, and a test cannot place a read between two given stores", "anchors": ["src/gotcha.c:insert_at_head", "src/gotcha.c:insert_after_pos", "src/gotcha.c:rewrite_wrapper_orders", "src/gotcha.c:update_library_got", "src/gotcha_dl.c:dlopen_wrapper"]}
{"id": "C90", "title": "Constructors that use GOTCHA while dlopen is running", "statement": "A dlopen that GOTCHA intercepts runs the constructors of the new objects before GOTCHA gets to patch them, and those constructors may themselves call GOTCHA or dlopen, to any depth. If they only set or read priorities, set the default filter and dlopen further objects, every object loaded is intercepted for every wrapped function when the outermost dlopen returns. If a constructor calls gotcha_wrap for a function GOTCHA did not know, the objects that came with this dlopen are not intercepted for any function wrapped before (unless the constructor's table names it too): their slots keep what the loader stored until the next gotcha_wrap. All other objects stay intercepted.", "quantifier": "every process, every tree of dlopen calls and constructor events of any depth, every object, slot and function", "why_tests_cant": "the trees of nested dlopen calls are unbounded, and the repository has no test in which a constructor calls GOTCHA", "anchors": ["src/gotcha_dl.c:dlopen_wrapper", "src/gotcha.c:gotcha_wrap", "src/gotcha.c:update_library_got", "src/gotcha.c:update_all_library_gots"]}
{"id": "C91", "title": "References to libraries taken by the intercepted dlsym", "statement": "The real dlsym leaves the reference counts of libraries alone. GOTCHA's dlsym(RTLD_NEXT, f), for a name nobody wrapped, calls the real dlopen on the first library after the caller's that exports f and never dlclose: each such call takes one reference to that library for good, so after any sequence of calls a library has been referenced once for each call it answered, and a program's own dlclose can no longer unload it. A call with any other handle, one that finds no library and one that returns a wrapper take none, and no call takes more than one.", "quantifier": "every process, every history, every sequence of dlsym(RTLD_NEXT, f) calls of any length from any loaded code, every behaviour of the real dlsym and dlopen", "why_tests_cant": "the leak grows with the number of calls and is invisible in the value returned; the tests only compare the returned pointer", "anchors": ["src/gotcha_dl.c:dlsym_wrapper", "src/gotcha_dl.c:gotchas_dlsym_rtld_next_lookup"]}
{"id": "C92", "title": "dlerror after the intercepted dlsym", "statement": "Programs tell a failed dlsym by dlerror() != NULL, and a NULL result is expected exactly then. With GOTCHA, for a name nobody wrapped, an error is pending after dlsym with an ordinary handle exactly when NULL is returned, and so it is with RTLD_NEXT when a library after the caller's exports the name. Otherwise it fails both ways: for a wrapped name that the real dlsym does not find, the wrapper is returned with an error pending; with RTLD_NEXT and no library after the caller's, NULL is returned without an error whenever the real dlsym, which searches from GOTCHA's own position, finds the name.", "quantifier": "every process, every history, every name, handle and caller, every behaviour of the real dlsym and dlopen", "why_tests_cant": "depends on all orders of libraries and all behaviours of the real dlsym; the tests never call dlerror", "anchors": ["src/gotcha_dl.c:dlsym_wrapper", "src/gotcha_dl.c:gotchas_dlsym_rtld_next_lookup"]}
{"id": "C93", "title": "Overlapping gotcha_wrap and dlopen calls in several threads", "statement": "GOTCHA takes no lock. If several threads call gotcha_wrap (each with its own table) or dlopen at the same time and are interleaved in any way between the parts of the functions (preparing the table, each binding, loading, searching pending functions, each library), then no thread crashes and no registration is lost: at every moment the stacks and handles are those of some serial order of the bindings and loads, and when all threads are back every function has exactly the wrappers of all tables. The GOT updates however can get lost: if one thread goes through all libraries while another, which has already advanced the generation counter, is still in the loop over its bindings, the second one finds every library marked as done and writes nothing, although it returns success. Its functions are then not intercepted.", "quantifier": "every process, every history, any number of threads in gotcha_wrap and dlopen, every table, every interleaving of the parts", "why_tests_cant": "the interleavings are unbounded in number and length and the repository has no test with threads", "anchors": ["src/gotcha.c:gotcha_wrap", "src/gotcha.c:rewrite_wrapper_orders", "src/gotcha.c:update_all_library_gots", "src/gotcha.c:update_library_got", "src/gotcha_dl.c:dlopen_wrapper"]}
{"id": "C94", "title": "gotcha_wrap and dlopen overlapping in two threads", "statement": "GOTCHA takes no lock. If one thread is in gotcha_wrap while another is in dlopen, each can make the other ineffective. A dlopen that goes through all libraries while a gotcha_wrap in another thread has advanced the generation counter but not yet entered its functions marks all libraries as done; gotcha_wrap then returns success without writing any slot. Conversely, if a gotcha_wrap goes through all libraries after another thread's dlopen has loaded its objects but before that dlopen updates the GOTs, the new objects are marked as done with the small table of that gotcha_wrap; the functions wrapped before are never intercepted in the new objects. Registrations are not lost and nothing crashes (C93).", "quantifier": "every process, every history, any number of threads in gotcha_wrap and dlopen, every interleaving of the parts", "why_tests_cant": "the interleavings are unbounded in number and length and the repository has no test with threads", "anchors": ["src/gotcha.c:gotcha_wrap", "src/gotcha.c:update_all_library_gots", "src/gotcha.c:update_library_got", "src/gotcha_dl.c:dlopen_wrapper"]}
{"id": "C95", "title": "Overlapping first calls of gotcha_wrap", "statement": "gotcha_init tests and sets its flag without a lock. A thread that makes the first call undisturbed gets the complete initialisation followed by its gotcha_wrap. If a thread is interrupted after setting the flag and before creating the tables, every other thread that enters gotcha_wrap with a non-empty table crashes. If two threads pass the test of the flag, the second one creates the tables again: every function registered in the meantime is forgotten. No matter how the threads go on, a forgotten function is found in the function table only if somebody wraps it again, and a later dlopen does not intercept it in the new objects, although the gotcha_wrap that registered it returned success.", "quantifier": "every process, any number of threads making their first calls, every table, every interleaving of the parts of gotcha_init and gotcha_wrap", "why_tests_cant": "the interleavings are unbounded in number and the repository has no test with threads", "anchors": ["src/gotcha_utils.c:gotcha_init", "src/gotcha_utils.c:setup_hash_tables", "src/gotcha_dl.c:handle_libdl", "src/gotcha.c:gotcha_wrap"]}
{"id": "C96", "title": "GOTCHA's own memory is accounted for", "statement": "Whichever allocations fail, GOTCHA never frees a block twice or frees something it did not allocate. After every history of calls all its memory is accounted for: each of the three global hash tables has exactly one array, of exactly its size, however often it has grown; the temporary table of every gotcha_wrap has been freed; there is one block per tool and one per library seen; the arrays of internal bindings hold exactly the internal bindings there are, also after a gotcha_wrap that returned GOTCHA_INTERNAL. No block other than the array of a table is ever freed, so handles and records do not dangle. A dlopen of libraries already known allocates and frees nothing. But the record of a library is not given back at dlclose: opening and closing libraries at ever new addresses leaks.", "quantifier": "every process, every history of gotcha_wrap, priorities, filters, loads, dlopen and dlclose, every pattern of failing allocations", "why_tests_cant": "leaks and double frees depend on unbounded histories and on where allocations fail; the test suite neither injects allocation failures nor counts blocks", "anchors": ["src/hash.c:grow_hashtable", "src/hash.c:destroy_hashtable", "src/tool.c:add_binding_to_tool", "src/tool.c:create_tool", "src/gotcha_utils.c:add_library", "src/gotcha_utils.c:setup_hash_tables", "src/gotcha.c:gotcha_wrap"]}
{"id": "C97", "title": "gotcha_wrap does the right thing for every value of num_actions", "statement": "For 0 to 2^30-1 bindings no size computation wraps around: the table of bindings gets the least multiple of a page's worth of entries that is at least twice the number of bindings, the bytes asked for are exactly 48 per entry, and gotcha_wrap acts on exactly the first num_actions entries. A negative num_actions (down to -2^30) on a machine with 4096-byte pages registers the tool and nothing else, and returns GOTCHA_INTERNAL. With 16 kB or 64 kB pages, however, -1 to -7 make the rounding wrap around and gotcha_wrap returns GOTCHA_SUCCESS. Outside of [-2^30, 2^30) the code has a signed overflow.", "quantifier": "every state, every table, every tool name, every int num_actions, every allocator that refuses half the address space", "why_tests_cant": "tests cannot pass billions of bindings; the outcome for negative counts depends on 2^64 modulo the entries of a page, on page sizes the test machine does not have", "anchors": ["src/gotcha.c:gotcha_wrap", "src/tool.c:add_binding_to_tool", "src/hash.c:create_hashtable"]}
{"id": "C98", "title": "Only an out-of-date lookup in rewrite_wrapper_orders can lose a wrapper between threads", "statement": "With threads that can also be interrupted between lookup_hashtable in rewrite_wrapper_orders and what is done with its result: on every schedule on which no thread goes on with a lookup that another thread has made out of date, no thread crashes and the state is one that a schedule with lookup and insertion as one part leads to, so C93 applies. If two threads that each become outermost for the same function both look it up before either goes on, both wrappers continue with what was outermost before: a call that reaches one of them never reaches the other, although both calls of gotcha_wrap succeed.", "quantifier": "every process, every earlier history, any number of threads, every schedule; for the second part every state any schedule leads to", "why_tests_cant": "the window is a few instructions wide; a test run practically never interleaves two threads there", "anchors": ["src/gotcha.c:rewrite_wrapper_orders", "src/gotcha.c:gotcha_wrap", "src/hash.c:lookup_hashtable"]}
{"id": "C99", "title": "The filter in force decides which libraries gotcha_wrap and dlopen reach", "statement": "Whatever filters were set before and however libraries have come and gone (loaded behind GOTCHA's back, unloaded, loaded again): when gotcha_wrap makes a wrapper the outermost one of its function, every call of the function from every library that the filter in force lets through runs the whole stack of wrappers, in priority order if the priorities are settled, then the function. An intercepted dlopen does the same for all wrapped functions and every library that it loads for the first time and that the filter in force lets through. Under gotcha_only_filter_last nothing but the slots of the object last on the link map is written; so a dlopened library that brings a dependency with it is not intercepted itself.", "quantifier": "every process, every history with well-behaved clients and arbitrary filters, every table without main, every load, every library and slot", "why_tests_cant": "the tests use three filters on one fixed set of libraries and check one call each; what an earlier filter, an unseen load or a reload leaves behind for a later call is a matter of all histories", "anchors": ["src/library_filters.c:trueIfLast", "src/library_filters.c:gotcha_set_library_filter_func", "src/gotcha.c:update_library_got", "src/gotcha.c:gotcha_wrap", "src/gotcha_dl.c:dlopen_wrapper"]}
{"id": "C100", "title": "Calls of a function depend on its own registrations and priorities only", "statement": "What a call of a function f (other than the four GOTCHA wraps for itself) runs is determined by the story of f: the registrations of f and the gotcha_set_priority calls for the tools that made them, in the order of time; each new wrapper goes below those whose tools have at that moment a priority at least as high. Everything else makes no difference: gotcha_wrap for other functions, other tools and their priorities, gotcha_get_priority, filters, loading and unloading, even another process. If no priority changes once the tool has wrapped something and the wrappers of f have different priorities, the order in which the tools come makes no difference either; between tools of equal priority it does.", "quantifier": "every process, every two histories with the same story of f (or the same registrations in another order), every function, every library treated well, every slot", "why_tests_cant": "it compares any two executions of any length; a test runs one history, and which unrelated events could interfere is not a finite list", "anchors": ["src/gotcha.c:rewrite_wrapper_orders", "src/gotcha.c:gotcha_wrap", "src/tool.c:reorder_tool", "src/gotcha.c:gotcha_set_priority"]}
{"id": "C101", "title": "Wrapping is transparent for ordinary functions, and what happens for versions and IFUNCs", "statement": "A tool that only passes calls on must not change which function the program runs. Let every object of the process have at most one symbol of the name, not an IFUNC, exported with a size other than 0 when defined, in a version that answers the references, and let the objects stay loaded. Then calls of the function, which before wrapping ran the function the dynamic loader had bound the slot to, afterwards run the wrappers and end in that same function. Without these conditions calls end at the value of the symbol with the highest version index in the first object that has one, whatever version the calling library was linked against: a library linked against an old version ends in another one, and for an IFUNC the resolver is called instead of the function.", "quantifier": "every process, every history, every function, every calling library and slot, every symbol table that meets the ELF format", "why_tests_cant": "it compares GOTCHA's symbol lookup with the loader's symbol versioning rules for all symbol tables and link maps; tests use one toolchain whose libraries have one version of each wrapped function", "anchors": ["src/gotcha.c:lookup_exported_symbol", "src/gotcha.c:prepare_symbol", "src/elf_ops.c:lookup_gnu_hash_symbol", "src/elf_ops.c:lookup_elf_hash_symbol"]}
{"id": "C102", "title": "Programs compute what the stacks of wrappers say", "statement": "Take any program whose functions call each other through the slots of the loaded libraries, whose wrappers ask gotcha_get_wrappee, and call what it returns any number of times with any arguments, and which calls gotcha_wrap, the priority functions, the library filter, dlopen and dlclose wherever it likes, wrappers included. Start it after any history. If the program, executed with calls by name over the stacks of registered wrappers (sorted by priority when priorities are settled; functions nobody wrapped where the loader bound them) and GOTCHA's functions answering from the list of events alone, ends with some output and result, then executed through memory and handles with GOTCHA's code it ends with the same output and result, and no other, in the state of the history extended by the program's events. In particular wrappers compose: if each wrapper turns the function g it wraps into W(g), a call computes the wrappers, outermost first, applied to the real function. For the minimal example: after sample_init a call of retX(x) prints x and returns x+1 for every int but INT_MAX, where the wrapper's addition overflows, and main, which calls sample_init first, ends with 0: its assert holds.", "quantifier": "every process, every history, every program (any value type, any code of the functions, recursion included), every slot", "why_tests_cant": "it speaks of all programs and of all wrappers over all histories; a test runs one program", "anchors": ["src/gotcha.c:gotcha_wrap", "src/gotcha.c:gotcha_get_wrappee", "src/example/minimal/sampleLib.c:dogRetX", "src/example/minimal/symbolLookup.c:main"]}
{"id": "C103", "title": "The engine sees one page size and one vdso, those of the kernel's files, and passes over the vdso only", "statement": "gotcha_getpagesize and is_vdso, called in any order, any number of times and with any changes of the link map in between, share static variables (the auxiliary vector is parsed once by whichever comes first). Their answers are those of one environment: one page size, and the vdso detected on the link map at the first is_vdso call. For a well-formed auxiliary vector these are the page size of the vector and the first object with its dynamic section at the offset given by the vdso image. If at the first API call the vdso is the only such object, calls of a wrapped function end in the first definition outside of the vdso; if the program itself has its dynamic section at that offset, its definitions are passed over.", "quantifier": "every sequence of questions, every auxiliary vector, every process and history, every function and slot", "why_tests_cant": "it connects parsing of kernel files, static variables shared by two entry points and the symbol lookup for all call orders and link maps; a test process has one vdso and one call order", "anchors": ["src/gotcha_auxv.c:is_vdso", "src/gotcha_auxv.c:parse_auxv_contents", "src/libc_wrappers.c:gotcha_getpagesize", "src/gotcha.c:lookup_exported_symbol"]}
{"id": "C104", "title": "GOTCHA changes the protection of GOT and RELRO pages of admitted libraries only, to read-write-execute, and never changes it back", "statement": "After any run, whatever the clients do, an address has the protection the loader gave it, or it is writable and its page held part of the RELRO segment or of the PLT GOT (or began less than DT_RELSZ bytes after it) of an object that was loaded and let through by the filter in force. GOTCHA takes write permission away from no address. A patched word stays on a writable page for the rest of the run, so RELRO is not in force again. For a library with a PLT GOT and a RELRO segment whose mprotect calls succeed, all of that segment and the page of the PLT GOT become readable, writable and executable at the same time; the permissions of other addresses do not change except for the pages named before.", "quantifier": "every process, run, state, address, library and page size 2^k with k < 64; no assumption about the clients", "why_tests_cant": "it is about every address of the process and every moment of every run; tests check that a wrapper is reached, not which protections are left behind", "anchors": ["src/gotcha.c:mark_got_writable", "src/gotcha.c:find_relro_boundary", "src/gotcha.c:update_library_got"]}
{"id": "C105", "title": "The full debug log changes nothing, is true, and determines memory, protections and wrappee pointers", "statement": "With all debug messages (GOTCHA_DEBUG=3) every event of the interface has the same result, state and faults as without, and the messages of level 1 among them are those of C81. Every message is true: a symbol said to be found at an address is exported there by a loaded object of that name, one said not to be there is not, a remapped word is a GOT entry of the named function in a loaded, admitted library of the given name, an announced mprotect that is not reported as failed was granted and is one that the library's tables ask for. A reader who starts with the memory at the beginning and knows what the loader did obtains, by applying the messages in order, the memory, the writable pages, the wrappee pointer of every binding, the number of bindings and library records, the generation and whether main is wrapped after every history. So every word and every wrappee pointer that GOTCHA changes is named in the log with its new value.", "quantifier": "every environment, state, event, history of any length and contents of the loaded objects; no assumption about clients", "why_tests_cant": "a test can look at the log of one run; that no change is ever missing from the log, and none of its lines wrong, is about all histories and all places where the engine writes", "anchors": ["src/gotcha.c:setInternalBindingAddressPointer", "src/gotcha.c:lookup_exported_symbol", "src/gotcha.c:update_lib_bindings", "src/gotcha.c:mark_got_writable", "src/gotcha.c:update_library_got", "src/gotcha_dl.c:per_binding", "src/gotcha_utils.h:debug_printf"]}
{"id": "C106", "title": "Calls on other processors: safe when stores become visible in order (x86), not when they may be reordered", "statement": "GOTCHA issues no memory barriers. Seen by callers of wrapped functions, its stores change one place at a time (a GOT word, a handle variable or a wrappee pointer). On a processor whose stores become visible late but in order, through a store buffer of any length (x86), a call of a wrapped function on another processor that overlaps a gotcha_wrap or an intercepted dlopen completes without reading anything invalid and runs exactly what a call before or a call after it runs; a call that overlaps any number of events runs a path between them. The same holds on any processor if GOTCHA's stores had release semantics and the loads of the caller acquire semantics. On a processor that may reorder plain stores to different places (ARM, POWER) it is false: whenever a gotcha_wrap puts a wrapper of its table into a GOT word, a caller on another processor can see that word before the handle variable and dereference NULL.", "quantifier": "every honest history, function, library, call slot, size of the store buffer and interleaving of stores, drains and reads; the refutation for every state, table and GOT word", "why_tests_cant": "reorderings depend on the processor and on timing; a test on x86 can never show them and one on ARM rarely does", "anchors": ["src/gotcha.c:setBindingAddressPointer", "src/gotcha.c:setInternalBindingAddressPointer", "src/gotcha.c:insert_after_pos", "src/gotcha.c:gotcha_wrap", "src/gotcha_dl.c:dlopen_wrapper"]}
{"id": "C107", "title": "A wrapper takes effect at one moment for each call site, and not at the same moment for different call sites", "statement": "While gotcha_wrap inserts a wrapper, or an intercepted dlopen wires up new objects, every call site (GOT slot) of a function has one moment at which it changes over: a call that ends before it runs exactly what a call before the operation runs, a call that begins after it exactly what a call after the operation runs, a call around it one of the two. Calls through one call site are therefore linearizable, they never go back to the old stack. This covers calls that GOTCHA itself makes in the middle of the operation, since its own library is patched like any other, and calls made by signal handlers. For several call sites it is false: whenever a gotcha_wrap changes two GOT words, in whatever state, there is a time when one is new and the other old.", "quantifier": "every honest history, table, function, library and call slot, every interleaving of a caller's reads with GOTCHA's stores; the refutation for every state, table and pair of GOT words", "why_tests_cant": "the moment lies between two store instructions and a test cannot stop GOTCHA between any two of them, nor try every interleaving", "anchors": ["src/gotcha.c:insert_at_head", "src/gotcha.c:insert_after_pos", "src/gotcha.c:update_lib_bindings", "src/gotcha.c:update_all_library_gots", "src/gotcha.c:gotcha_wrap", "src/gotcha_dl.c:dlopen_wrapper"]}
{"id": "C108", "title": "The debug output is printed as written, unambiguous, and tells what GOTCHA has done", "statement": "At every debug level the internal printf prints, for each message of that level and below and in order, exactly the line that the source describes: thread, process, file and line, \"ERROR \" in front of errors, strings as they are, numbers in decimal, addresses in hexadecimal. Different logs give different output, so that every message and every value can be recovered from the text; with C105, the output of an event at level 3 determines the memory, the page protections, the wrappee pointers and the records after it. Every message is one line, except the one about main, which lacks the line break (refutation). If a library's or function's name contains spaces, different messages can look the same (refutation).", "quantifier": "every message with every value, every log, every debug level, every layout of the objects in memory, every event; lines up to 4096 characters (longer ones: C46)", "why_tests_cant": "that no two of infinitely many logs share a text, and that every format agrees with its arguments for all values, is not visible in the output of some runs", "anchors": ["src/gotcha_utils.h:debug_printf", "src/gotcha_utils.h:error_printf", "src/gotcha_utils.h:debug_bare_printf", "src/libc_wrappers.c:gotcha_int_printf", "src/gotcha.c:gotcha_wrap", "src/gotcha_dl.c:dlopen_wrapper", "src/gotcha_dl.c:dlsym_wrapper"]}
{"id": "C109", "title": "Threads and programs that run for ever behave as the stacks of wrappers say, step by step", "statement": "Take any number of threads, each in the midst of any program that calls wrapped and other functions, gotcha_get_wrappee, GOTCHA, dlopen and dlclose. Under every schedule, whatever the threads do when run by names over stacks of wrappers they do on the machine, step for step: the same output in the same order, the same calls pending, the state of the history so far, and nothing else. So a program that never ends, like a server that is wrapped while it runs, never ends with wrappers and behaves the same at every step, and one that ends is covered by C102 (the two semantics agree). Conversely a run on the machine is one over stacks of wrappers, up to the first step about which the stacks say nothing.", "quantifier": "every process, history, program, number of threads, schedule (finite of any length, or infinite); each call into GOTCHA and the loader is one step (calls made by other threads meanwhile: C25, C80, C89, C106, C107)", "why_tests_cant": "schedules are too many to test, and no test observes a run without end", "anchors": ["src/gotcha.c:gotcha_wrap", "src/gotcha.c:gotcha_get_wrappee", "src/gotcha_dl.c:dlopen_wrapper"]}
{"id": "C110", "title": "Lazy binding makes no difference, unless a binding overlaps gotcha_wrap", "statement": "GOTCHA never reads the words it overwrites: whatever GOT slots hold, every call has the same outcome. So a process that binds lazily (slots start out holding stubs, objects are loaded with stubs, and the dynamic linker binds slots still holding stubs at any time between the events) behaves as one that binds at load: the events return the same and do not fault, all records and wrappees are the same, every call through a slot ends up in the same place, and a call of a wrapped function goes to the stack of wrappers without passing the dynamic linker. Calls (C01) and programs with threads (C109) are the same. But if a call through an unbound slot has begun and the dynamic linker writes the slot only after gotcha_wrap, then the wrapper is lost for that library, and a later dlopen does not bring it back (refuted with a concrete process).", "quantifier": "every process, history, set of stubs, choice of unbound slots and times of binding, program and schedule; the function a stub leads to is fixed", "why_tests_cant": "which slots are bound when depends on all calls the program made before, and tests bind in one order; losing a wrapper needs a race with the dynamic linker", "anchors": ["src/gotcha.c:update_library_got", "src/gotcha.c:gotcha_wrap", "src/gotcha_dl.c:dlopen_wrapper"]}
{"id": "C111", "title": "Library filters decide by the client's last call and by what is in memory when they are consulted", "statement": "Whatever filter calls a client has made, the last one decides: after gotcha_filter_libraries_by_name(p) an object passes iff the string at p occurs in its name, NULL lets nothing pass, gotcha_only_filter_last only the last object of the link map, gotcha_restore_library_filter_func and no call at all everything, a function of the client what it returns. So the filters of the engine's model are those of the code. The pointer is kept, not the string: the string counts that is there when the filter is consulted, so changing it changes the filter (refuted: the name given is kept). The build without libc decides the same except for the empty string, which lets everything pass in the default build and nothing there. Setting a NULL function is not a way to remove a filter: the next call of GOTCHA jumps to NULL.", "quantifier": "every sequence of filter calls, memory contents, name, and filter string (shorter than 2^31 for gotcha_strstr), every strstr that does what C says", "why_tests_cant": "tests pass string literals, which never change, and run the default build with one filter", "anchors": ["src/library_filters.c:trueIfNameMatches", "src/library_filters.c:trueIfLast", "src/library_filters.c:gotcha_filter_libraries_by_name", "src/library_filters.c:gotcha_set_library_filter_func", "src/libc_wrappers.c:gotcha_strstr"]}
{"id": "C112", "title": "Programs that keep function pointers, use dlsym and load libraries compute what the stacks of wrappers say", "statement": "The programs of C102, C109 and C110 may read a function pointer from a slot or from dlsym, keep it and call it at any later time, and call functions through the slots of libraries loaded later. A pointer to f read after a history and called after any continuation computes the wrapper that was outermost when it was read and all that are then below it, applied to the function: all wrappers there were are run, those that came on top later are not. A pointer read before f was wrapped runs no wrapper (refuted: a program that has the pointer all along gets what a slot gives). With one tool on f, and the C library finding the function itself or nothing, calling what dlsym returns is for every program the same as calling f through a slot; with two or more tools and an ordinary handle it is the same as calling the function with no wrapper at all; for a function nobody wraps dlsym is the C library's.", "quantifier": "every process, history, continuation, program, meaning of wrappers and functions, slot, handle, and behaviour of the C library's dlsym", "why_tests_cant": "tests call a pointer right after they got it, with one tool, and look at one number", "anchors": ["src/gotcha_dl.c:dlsym_wrapper", "src/gotcha_dl.c:gotchas_dlsym_rtld_next_lookup", "src/gotcha.c:update_library_got", "src/gotcha.c:gotcha_get_wrappee"]}
{"id": "C113", "title": "The project's own test programs behave as written, in every process and for all priorities", "statement": "The programs test/stack, test/ppc_stress_multi_module, test/function_ptr, test/dispatcher and test/dlopen, taken as programs in the sense of C102 and C112, write what they should and end with 0, in every well-formed process in which their functions are exported, bound and found by the C library as the tests intend. In particular a library that wraps its own dispatch over dlopen and dlsym gets the functions of the library it loads and not its own wrappers. test/priority, for all three priorities, ends with 0 if and only if they are all different, all the same, or the two highest are the same and belong to tools 1 and 3 or 2 and 3; for 2 2 1, which the project has commented out, it fails because its bubble sort turns round tools of equal priority and GOTCHA does not.", "quantifier": "every process, address of functions, wrappers and handles, behaviour of the C library's dlsym as described, and all three priorities", "why_tests_cant": "these are tests; a run of them is one process, one layout and seven triples of priorities", "anchors": ["test/stack/app.c:main", "test/ppc_stress_multi_module/app.c:main", "test/function_ptr/test_function_ptr.c:main", "test/priority/app.c:main", "test/dispatcher/main.c:main", "test/dispatcher/libdispatcher.c:foo", "test/dlopen/test_dlopen.c:main", "src/gotcha.c:gotcha_wrap", "src/gotcha_dl.c:dlsym_wrapper"]}
{"id": "C114", "title": "A library kept out by filters goes on with the wrappers it had", "statement": "A library that filters let pass, and that GOTCHA saw loaded, up to some event, and that the filters in force have kept out since then, goes on calling each function as it was bound at that event. A call of a function that was wrapped then enters the stack at the wrapper that was outermost at that time: tools that wrap the function later are seen by the library if they come further inside, and are not if they come further outside, while libraries no filter keeps out run the whole stack. A call of a function that was not wrapped then goes where the loader has bound it, whatever wraps it later. The rules for running programs (C102, C112) include such libraries. As a consequence the program of test/filter, which sets a filter by name and one for the last library while it wraps three functions, ends with 0 in every well-formed process in which it is neither of the libraries asked for, even though its last call of gotcha_wrap passes a binding a second time (C05).", "quantifier": "every process, history, filter, continuation, library, function and behaviour of wrappers; for the test, every address of functions, wrappers, handles and slots", "why_tests_cant": "test/filter checks two functions in one process, each wrapped once, and never a function that is wrapped again after the filter was set", "anchors": ["src/gotcha.c:update_library_got", "src/library_filters.c:gotcha_set_library_filter_func", "src/library_filters.c:gotcha_filter_libraries_by_name", "src/library_filters.c:gotcha_only_filter_last", "test/filter/test_filter.c:main"]}
{"id": "C115", "title": "GOTCHA called by a signal handler in the middle of GOTCHA", "statement": "Calls of gotcha_wrap and dlopen have begun, in any threads or one inside the other. Then a call is made from beginning to end, as by a signal handler that interrupts one of them. If it is a dlopen, or a gotcha_wrap that writes any word, then nothing is written after it: the interrupted calls go on and return, and what they had still to write is not written, since all libraries already have the current generation. Functions that only an interrupted gotcha_wrap wraps, if it had not entered all its bindings, are intercepted nowhere. A concrete process in which both calls return success, the handler's function is intercepted and the other is not.", "quantifier": "every well-formed process, history, number of calls and points where they are interrupted, tables without main", "why_tests_cant": "a test would have to send signals at every point of every call, for every table and set of libraries", "anchors": ["src/gotcha.c:gotcha_wrap", "src/gotcha.c:update_all_library_gots", "src/gotcha.c:update_library_got", "src/gotcha_dl.c:dlopen_wrapper"]}
{"id": "C116", "title": "Programs whose main function is wrapped, and programs with symbol versions", "statement": "How a program starts when main is wrapped: the start-up code's call of __libc_start_main goes through GOTCHA's wrapper to the C library's function, with in place of the program's own main whatever the handle of main gives; so the wrappers of main run that belong to tools of a priority not above GOTCHA's own (those above are passed over, C73), the one of highest priority first, each called with the program's arguments unless a wrapper passes on others, and in the end the program's own main. So the test wrap_main prints its constructor's line, the wrapper's line, one line for every argument in order, main's line and the value returned, for any arguments, and ends with 0. The test symver, whose library defines retX in two versions, gets the value of the default version plus one through its wrapper and ends with 0.", "quantifier": "every well-formed process, history of other tools before and after, number of arguments, order of the wrappers", "why_tests_cant": "the tests run with one set of arguments, one set of libraries and no other tools", "anchors": ["src/translations.c:gotcha_internal_libc_start_main", "src/translations.c:gotcha_internal_main", "test/wrap_main/lib.c", "test/wrap_main/app.c", "test/symver/test_symver.c"]}
{"id": "C117", "title": "The test hammer, of any size", "statement": "The test hammer: (X+1)*(Y+1) functions that multiply and as many that add, any number of libraries that call them, each through slots of its own, in any order. Before gotcha_wrap all calls give the product or the sum; after the first gotcha_wrap, which wraps all the products in one call, every product is negated and no sum is; after the second every product and every sum is negated once. The program ends with 0, and with nothing else.", "quantifier": "every X and Y, every number of libraries and of calls, every well-formed process", "why_tests_cant": "a test runs with one X, Y and set of libraries", "anchors": ["test/hammer/hammer.cc:main", "test/hammer/wrap.cc:dowrap", "test/hammer/multref.cc", "test/hammer/addref.cc", "test/hammer/math.hpp"]}
{"id": "C118", "title": "The hash table's own unit test, for any number of entries", "statement": "hash_grow_test passes for every number of entries from one to ten million, with any page size of at least 48 bytes: every entry is found with its own number after all have been added, whatever the collisions and however often the table has grown, all are removed, and one more removal returns -1. For every larger number it fails, at the assertion that an item searched for was found: the test keeps seven characters of each key, so that 1000000 and 10000000 are the same key.", "quantifier": "every NUM_INSERTS and page size", "why_tests_cant": "the test runs with one number of entries (16384) and one page size", "anchors": ["test/unit/gotcha_unit_tests.c:hash_grow_test", "src/hash.c:addto_hashtable", "src/hash.c:lookup_hashtable", "src/hash.c:removefrom_hashtable"]}
{"id": "C119", "title": "The allocator's own unit test, for any number of blocks and rounds", "statement": "gotcha_heap_test passes for every number of blocks up to 2^30, every number of rounds and every page size, from any state of the heap: every block keeps what was written to it while other blocks are allocated, written and freed, and in the end all the test's blocks have been given back, with memory of at most a stated bound taken from the system. The one exception: when mmap refuses memory, which only happens after at most that bound was asked for, gotcha_malloc returns NULL and the test writes through it.", "quantifier": "every HEAP_TEST_SIZE up to 2^30, number of rounds, page size, mmap and state of the heap", "why_tests_cant": "the test runs with 4096 blocks and ten rounds from an empty heap, and never without memory", "anchors": ["test/unit/gotcha_unit_tests.c:gotcha_heap_test", "src/libc_wrappers.c:gotcha_malloc", "src/libc_wrappers.c:gotcha_free"]}
{"id": "C120", "title": "The test rogot, with any calls, and the example it comes from", "statement": "The program of the test rogot, with any output calls before init_autotee, between it and close_autotee, and afterwards, returns 0 and behaves as without the tool: all calls return the same and every stream and descriptor gets the same; tee.out gets exactly what went to stdout between the two calls, in that order, and its descriptor what was written to descriptor 1 between them. If the file cannot be opened or gotcha_wrap fails, the program returns -1 and nothing is copied. The same program with src/example's close_autotee, which keeps tee_FILE, uses the closed stream at the first call that prints to stdout after close_autotee, as src/example's own test program does.", "quantifier": "every list of calls before, between and after, every descriptor of the file other than -1 and 1, every behaviour of the C library that accepts all output (for the copy) and whose fwrite returns less than 2^31", "why_tests_cant": "the test runs one list of calls, and does not look at tee.out", "anchors": ["test/rogot/autotee.c:close_autotee", "test/rogot/test_autotee.c:main", "src/example/autotee/autotee.c:close_autotee", "src/example/autotee/test_autotee.c:main"]}
{"id": "C121", "title": "What calls of a wrapped function end in is fixed, for all callers and for good", "statement": "The definition of a wrapped function that GOTCHA finds first is what the calls of all open libraries end in after every continuation, whatever is loaded, unloaded or wrapped later. It is code of a loaded library as long as no dlclose takes away the library that defined it; once that library is gone, every caller runs the wrappers and jumps to where nothing is loaded, and no API call or dlopen changes that. A caller keeps the function that the loader had bound it to exactly when that is the definition found first: of two libraries bound to different definitions of the same name (RTLD_LOCAL plugins) at least one loses its own. Wrappers are for good too: every call runs every wrapper ever registered, also when the library holding it has been unloaded. Refuted: that unloading a tool's library leaves calls running loaded code only, that a library keeps its own definition below the wrappers, and that calls which would run loaded code without GOTCHA end in loaded code with it.", "quantifier": "every process, history, continuation, set of libraries treated well, function and pair of callers", "why_tests_cant": "ranges over all continuations; no test unloads a library that defines a wrapped function or has two definitions of one name", "anchors": ["src/gotcha.c:prepare_symbol", "src/gotcha.c:rewrite_wrapper_orders", "src/gotcha_dl.c:per_binding", "src/gotcha_dl.c:dlopen_wrapper"]}
{"id": "C122", "title": "Configuration keys, removal of tools and the lists of binding tables", "statement": "A configuration key other than GOTCHA_PRIORITY is refused with GOTCHA_INTERNAL by both functions, and the location asked for keeps its value; but setting it creates the tool, with the default priority, if there is none of that name, after which asking for its priority succeeds. remove_tool_from_list of a tool in the list takes out that tool and nothing else; of a tool whose name is not in the list it dereferences NULL unless the list is empty; of a tool removed before, when a new one has its name, it can lose other tools as well (refuted). The unit test's loop, which removes every tool it meets, empties every list, also after one tool has been taken out of the middle. get_bindings leads to every binding table once, newest first, and get_tool_bindings to exactly those of the tool, newest first.", "quantifier": "every list of tools (in particular after every history), key, value and name; every sequence of tool creations and tables", "why_tests_cant": "the unit test has four tools and one invalid key, and only looks whether the lists are NULL (in fact at the wrong variable)", "anchors": ["src/gotcha.c:gotcha_configure_int", "src/tool.c:get_configuration_value", "src/tool.c:get_default_configuration_value", "src/tool.c:remove_tool_from_list", "src/tool.c:add_binding_to_tool", "src/tool.c:get_bindings", "src/tool.c:get_tool_bindings", "test/unit/gotcha_unit_tests.c:symbol_wrap_test"]}
{"id": "C123", "title": "A second copy of GOTCHA in the process takes functions over", "statement": "Two tools may each bring their own copy of GOTCHA into a process. When the second copy is used after the first, in any way: a function the second copy's clients have wrapped is intercepted by the second copy alone - a call runs the second copy's wrappers in stack order, then the function itself, and no wrapper registered with the first copy, whatever the priorities (that wrappers registered with both copies all run is refuted). The same goes for dlopen, so that the first copy does not learn of libraries loaded from then on. A function only the first copy has wrapped stays intercepted by it in the libraries that were there, and is not intercepted in libraries loaded later. The second copy finds a well-formed process, so that everything proved about one copy holds of it.", "quantifier": "every process, every history of the first copy followed by every history of the second with disjoint handle variables, every function, library and slot", "why_tests_cant": "no test has two copies of the library in one process", "anchors": ["src/gotcha.c:prepare_symbol", "src/gotcha.c:rewrite_wrapper_orders", "src/gotcha.c:update_library_got", "src/gotcha.c:gotcha_wrap", "src/gotcha_dl.c:dlopen_wrapper", "src/tool.c:tools", "src/gotcha_utils.c:library_table", "src/library_filters.c:filter"]}
{"id": "C124", "title": "Any number of copies of GOTCHA, used in any interleaving", "statement": "Let a process contain any number of copies of GOTCHA, each with its own variables and clients, whose calls and dlopens are interleaved in any way. No call faults, and all copies agree on memory, protections and link map. The wrappers registered with a copy for a function stay one stack: a call of any of them runs those below it and then the function, and no wrapper of another copy, whatever the others have done. If the filters the other copies have in force keep them off some libraries, calls from those libraries run all wrappers registered with this copy, in one order by priority, and then the function. In particular copies that begin by setting filters by name, no two of which fit one library, each intercept their libraries in full as if they were alone. A word that is a slot of no library some copy's filter admits at one of its events holds what the loader put there.", "quantifier": "every type of copies, every process, every list of events labelled with the copy they happen to, every function, library and slot", "why_tests_cant": "no test has two copies of the library in one process, and the interleavings have no bound", "anchors": ["src/gotcha.c:gotcha_wrap", "src/gotcha.c:update_all_library_gots", "src/gotcha.c:update_library_got", "src/gotcha_dl.c:dlopen_wrapper", "src/library_filters.c:gotcha_filter_libraries_by_name", "src/library_filters.c:gotcha_set_library_filter_func", "src/tool.c:tools", "src/gotcha_utils.c:library_table"]}
{"id": "C125", "title": "The walk over the link map while other threads load and unload libraries", "statement": "gotcha_wrap and the intercepted dlopen follow the loader's list of link_map structures by pointer, without a lock, while other threads may call dlopen and dlclose. As long as no other thread unloads the library the walk stands on, it never uses a freed structure, nothing crashes in a well-formed process, and when it ends it has been to every library that is loaded at that moment, including those loaded while it was under way, and their records carry the current generation. If another thread unloads the library the walk stands on, the next step uses freed memory, whatever else is loaded or unloaded (unless the address is used again). If the address is given to a new library, the walk silently skips all libraries it had not been to. A walk that nobody disturbs is update_all_library_gots.", "quantifier": "every state, every interleaving of the walk's steps with loading and unloading, every table of bindings; the absence of crashes for every process and every history before the walk", "why_tests_cant": "the tests have one thread and never dlclose during gotcha_wrap; a use of freed memory often goes unnoticed", "anchors": ["src/gotcha.c:update_all_library_gots", "src/gotcha.c:update_library_got", "src/gotcha_dl.c:dlopen_wrapper"]}
{"id": "C126", "title": "remove_library at dlclose lets libraries come back", "statement": "If GOTCHA called its function remove_library for each library that dlclose is about to unload, libraries could be unloaded and loaded again any number of times: no event faults, and in the end a call through any GOT slot of any loaded library runs exactly the wrappers of all registered bindings, then the real function. Calling remove_library for loaded libraries as well, as test/unit does, harms nothing. The table of libraries then has no record of a library that is not loaded and never more records than loaded libraries. On histories without reloading all calls return what they return now. The engine as it is does not do this, and loses the library (C15).", "quantifier": "every well-formed process and every history of API calls, dlopens, dlcloses and remove_library calls, with any number of reloads of the same objects", "why_tests_cant": "the tests call remove_library only at the end of a unit test, and no test loads a library again; the failure and its repair depend on the whole history", "anchors": ["src/gotcha_utils.c:remove_library", "src/hash.c:removefrom_hashtable", "src/gotcha.c:update_library_got"]}
{"id": "C127", "title": "It does not matter how a tool's bindings are distributed over tables and calls", "statement": "In any history, a row of gotcha_wrap calls of one tool can be replaced by any other row of calls of that tool with the same bindings, as long as bindings of the same function keep their order and no table names main: splitting a table, joining tables, rearranging a table. All other calls return the same, the new row reports GOTCHA_FUNCTION_NOT_FOUND if the old one does, and in the end all handles, all call sites of wrapped functions and all calls are the same. With main in the table, or two bindings of one function in another order, this is false.", "quantifier": "every well-formed process, every history before and after, any number of calls and tables of any size, in the weak and in the strict sense of Spec/History", "why_tests_cant": "the tests use one table each; the claim compares pairs of programs for all tables", "anchors": ["src/gotcha.c:gotcha_wrap", "src/gotcha.c:rewrite_wrapper_orders", "src/gotcha.c:prepare_symbol"]}
{"id": "C128", "title": "What threads that got in each other's way left unwritten can be put right by two calls", "statement": "Threads call gotcha_wrap and dlopen at the same time and get as far as they get: some are back, some are killed or left behind by a fork, and slots that should have been written have not been (C93, C94, C115). Whatever they have done, a gotcha_wrap of an empty table followed by a dlopen of an object that is there already succeed, and after them every function any of the threads has wrapped is intercepted in every library, with all its wrappers. A dlopen alone, a gotcha_wrap alone, or the two in the other order do not put it right.", "quantifier": "every well-formed process in which everything is intercepted before, any number of threads and tables of any size, every schedule (stopping anywhere between two parts), every tool name for the repairing call", "why_tests_cant": "the tests are single-threaded; the claim is about all interleavings and all places where they may stop", "anchors": ["src/gotcha.c:gotcha_wrap", "src/gotcha.c:update_all_library_gots", "src/gotcha.c:update_library_got", "src/gotcha_dl.c:dlopen_wrapper"]}
{"id": "C129", "title": "A gotcha_wrap and a dlopen put right whatever GOTCHA has missed", "statement": "Filters that left objects out (C11), objects loaded behind GOTCHA's back (C12), libraries that were closed and came back (C15) and slots overwritten by the loader leave calls that bypass the wrappers. Whatever has happened, a gotcha_wrap of an empty table followed by a dlopen of an object that is there already succeed, and after them every call of a wrapped function from any object that passes the current filter runs all wrappers and then the function; with the filter set back to all libraries before them, from every object. A dlopen alone, a gotcha_wrap alone, or the two in the other order do not do it, nor does a gotcha_wrap that wraps a new function: it marks every library as up to date.", "quantifier": "every well-formed process, every history of wraps, priorities, filters, dlopens, loads GOTCHA does not see, unloads and reloads of any length, every tool name for the repairing call", "why_tests_cant": "no test repairs anything; the claim is about every history after which something is missed", "anchors": ["src/gotcha.c:gotcha_wrap", "src/gotcha.c:update_all_library_gots", "src/gotcha.c:update_library_got", "src/gotcha_dl.c:dlopen_wrapper", "src/library_filters.c:gotcha_set_library_filter_func"]}
{"id": "C130", "title": "Hash tables come and go without leaking, double freeing or getting mixed up", "statement": "A program with any number of hash tables that creates, fills, searches, empties and destroys them (destroy_hashtable may be called twice, a destroyed table may be created again) gets from each table the answers of a bag of associations of its own; every block on the heap is the array of exactly one table it has, and when all tables are destroyed nothing is left. A failing create_hashtable changes nothing; if a growing table gets no memory the process dies; a destroyed table crashes when used; creating a table one already has loses the memory of the first.", "quantifier": "every sequence of operations on every number of tables, every key type with any hash function, every initial size, every pattern of failing allocations", "why_tests_cant": "the unit test has one table which it never destroys; the claim is about all sequences and all failures of allocation", "anchors": ["src/hash.c:create_hashtable", "src/hash.c:destroy_hashtable", "src/hash.c:grow_hashtable", "src/hash.c:addto_hashtable", "src/hash.c:removefrom_hashtable", "src/hash.c:lookup_hashtable"]}
{"id": "C131", "title": "What has been put right stays right", "statement": "Whatever happened before that made GOTCHA miss slots, after a gotcha_wrap of an empty table and any dlopen, whatever it loads, a program can go on as it likes: for the objects that pass the filter and that are treated well from then on (filters let them pass, they are not loaded behind GOTCHA's back), every call of every function wrapped before or after runs all its wrappers and then the function, at every later moment. In particular a gotcha_wrap of an empty table before a plugin is opened again closes the gap of C15; without it, wrapping other functions later does not close it.", "quantifier": "every process, every history before and after, every dlopen, every choice of objects treated well", "why_tests_cant": "no test reopens a library and then goes on wrapping; the claim is about all continuations after all histories", "anchors": ["src/gotcha.c:gotcha_wrap", "src/gotcha_dl.c:dlopen_wrapper", "src/gotcha.c:update_all_library_gots", "src/gotcha.c:update_library_got"]}
{"id": "C132", "title": "A gotcha_wrap of an empty table before each dlopen closes the gap of reopened libraries", "statement": "A program that calls gotcha_wrap with an empty table before each dlopen, and otherwise wraps what it likes, sets priorities and filters, and opens, closes and reopens plugins as often as it likes, gets its calls intercepted: nothing faults, and in every loaded object that all filters set let pass (every object, under the default filter) every call of every wrapped function runs all its wrappers and then the function. Without the empty tables this is false (C15).", "quantifier": "every process, every history in which each dlopen comes directly after such a call, any number of reopened objects, any slot contents the loader leaves", "why_tests_cant": "the claim is about every sequence of opening, closing and reopening; tests open each library once", "anchors": ["src/gotcha.c:gotcha_wrap", "src/gotcha_dl.c:dlopen_wrapper", "src/gotcha.c:update_library_got", "src/library_filters.c"]}
{"id": "C133", "title": "The system calls of the build without libc are those of the manual pages", "statement": "In the build without libc, any sequence of open, read, write, close, mmap, mprotect, getpid and gettid through GOTCHA's own functions does what the manual pages promise, whatever the kernel answers: one request per call with the arguments passed, -1 and errno on errors, otherwise the kernel's result with errno unchanged, and no argument read that was not passed. The exception is open with O_TMPFILE and without O_CREAT: the mode does not get to the kernel.", "quantifier": "every sequence of calls, all arguments, every kernel (any state, any answers; open answers with a descriptor or an error number)", "why_tests_cant": "tests cannot make the kernel fail in every way, nor try all flags", "anchors": ["src/libc_wrappers.c:gotcha_open", "src/libc_wrappers.c:gotcha_read", "src/libc_wrappers.c:gotcha_write", "src/libc_wrappers.c:gotcha_mmap", "src/libc_wrappers.c:gotcha_mprotect", "src/libc_wrappers.c:gotcha_close", "src/libc_wrappers.c:gotcha_getpid", "src/libc_wrappers.c:gotcha_gettid"]}
{"id": "C134", "title": "A debug message is one system call, and short writes lose text silently", "statement": "gotcha_int_printf writes a message of at most 4096 characters with a single system call, so that output of other threads and processes cannot come in between; longer ones go out in buffers of 4096 bytes and one last nonempty write. Its return value is the length of the message whatever the kernel does: the whole text arrives exactly if the kernel takes all of each buffer, what one write leaves is never written again, and the return value is not the number of bytes that arrived.", "quantifier": "all formats made of supported pieces, all arguments, messages of any length below 2^31, every sequence of partial or failed writes", "why_tests_cant": "short writes depend on the kernel and the device; tests write to files that take everything", "anchors": ["src/libc_wrappers.c:add_to_buffer", "src/libc_wrappers.c:gotcha_int_printf", "src/libc_wrappers.c:gotcha_write"]}
