{"id": "C01", "title": "Base64 round trip", "statement": "For every byte string b, decoding the string produced by Azure_Base64_Encode_Bytes(b) (or Azure_Base64_Encode of a BUFFER holding b) with Azure_Base64_Decode yields a BUFFER whose length and content are exactly b.", "quantifier": "all byte strings of every length (allocation succeeding)", "why_tests_cant": "Unit tests try a handful of lengths and values; there are 256^n inputs and three tail shapes for every n.", "anchors": ["src/azure_base64.c:Base64_Encode_Internal", "src/azure_base64.c:Azure_Base64_Encode_Bytes", "src/azure_base64.c:Azure_Base64_Encode", "src/azure_base64.c:Azure_Base64_Decode"]}
{"id": "C02", "title": "Base64 output format", "statement": "The encoder's output is the RFC 4648 base64 text of the input: it has length 4*ceil(n/3), every character is one of the 64 alphabet characters except for the final 0, 1 or 2 which are '=' according to n mod 3, and it is bit-for-bit the regrouping of the input's bits into 6-bit digits. The encoder writes exactly the number of bytes it allocated (including the terminating NUL).", "quantifier": "all byte strings of every length", "why_tests_cant": "A wrong table entry or a wrong tail shift only shows for particular byte values at particular positions mod 3.", "anchors": ["src/azure_base64.c:base64char", "src/azure_base64.c:base64b16", "src/azure_base64.c:base64b8", "src/azure_base64.c:Base64_Encode_Internal"]}
{"id": "C03", "title": "Base64 decode is memory safe and rejects bad lengths on arbitrary text", "statement": "Azure_Base64_Decode of any NUL-terminated string never reads beyond the terminator, never writes outside the buffer it sized with Base64decode_len, returns NULL exactly when the length is not a multiple of four (or allocation fails), and otherwise returns a buffer of length 3*(len/4) minus the number of trailing '=' (at most 2).", "quantifier": "all NUL-terminated strings, including malformed ones", "why_tests_cant": "Memory-safety of a decoder on hostile input is a claim about every string; a test exercises only the strings its author thought of.", "anchors": ["src/azure_base64.c:Base64decode_len", "src/azure_base64.c:Base64decode", "src/azure_base64.c:Azure_Base64_Decode", "src/azure_base64.c:numberOfBase64Characters"]}
{"id": "C04", "title": "Base64 decode never exposes unwritten bytes", "statement": "Every byte of the buffer returned by a successful Azure_Base64_Decode has been written by the decoder (no uninitialised heap memory is handed to the caller).", "quantifier": "all NUL-terminated strings whose length is a multiple of 4", "why_tests_cant": "Uninitialised bytes usually hold plausible values in a test run; whether they can appear is a question about all malformed inputs.", "anchors": ["src/azure_base64.c:Azure_Base64_Decode", "src/azure_base64.c:Base64decode", "src/buffer.c:BUFFER_pre_build"]}
{"id": "C05", "title": "memory_data round trip and byte order", "statement": "For each width (8/16/32/64, signed and unsigned, and UUID), write_x(dest, v) followed by read_x(dest) returns v; write_x stores v most-significant byte first and changes no byte outside its width; read_x depends only on those bytes.", "quantifier": "all values of every width, all memory contents and all destination offsets", "why_tests_cant": "2^64 values per width; tests check a few constants, and endianness slips only show on asymmetric values.", "anchors": ["src/memory_data.c:read_uint32_t", "src/memory_data.c:write_uint64_t", "src/memory_data.c:read_int64_t", "src/memory_data.c:write_uuid_t", "src/memory_data.c:read_uuid_t"]}
{"id": "C06", "title": "memory_data readers have no undefined behaviour", "statement": "read_uint8_t ... read_int64_t evaluate without undefined behaviour for every byte content of the source.", "quantifier": "all source byte contents, for each reader", "why_tests_cant": "Signed-shift overflow is invisible at run time on common compilers; only an exhaustive argument over byte values settles it.", "anchors": ["src/memory_data.c:read_uint16_t", "src/memory_data.c:read_uint32_t", "src/memory_data.c:read_uint64_t", "src/memory_data.c:read_int32_t"]}
{"id": "C07", "title": "UUID text round trip", "statement": "For every 16-byte UUID u, uuid_from_string(uuid_to_string(u)) succeeds and yields u; uuid_to_string yields 36 characters, lower-case hex in groups of 8-4-4-4-12 separated by '-'.", "quantifier": "all 2^128 UUIDs", "why_tests_cant": "2^128 values.", "anchors": ["src/uuid_string.c:uuid_from_string", "src/uuid_string.c:uuid_to_string"]}
{"id": "C08", "title": "UUID parser accepts exactly the 8-4-4-4-12 hex grammar and never reads past the terminator", "statement": "uuid_from_string returns OK exactly on the strings its documented grammar allows, produces the value of the hex digits (either case), and for any NUL-terminated string (however short or malformed) reads no byte after the first NUL.", "quantifier": "all NUL-terminated strings", "why_tests_cant": "Over-reads on short strings only show under a sanitizer for the particular truncations tried; acceptance is a statement about all strings.", "anchors": ["src/uuid_string.c:uuid_from_string", "src/uuid_string.c:isHexDigit", "src/uuid_string.c:isHexByte", "src/uuid_string.c:parseHexString"]}
{"id": "C09", "title": "CONSTBUFFER serialization round trip", "statement": "For every buffer b whose size leaves room for the 5-byte header in 32 bits, CONSTBUFFER_to_buffer writes version, big-endian size and content; CONSTBUFFER_from_buffer on that memory (with any trailing bytes) returns a buffer with contents b and reports consumed = get_serialization_size(b). to_fixed_size_buffer writes the same bytes or fails without writing.", "quantifier": "all byte strings, all destination sizes, all trailing bytes", "why_tests_cant": "Unbounded sizes and contents; the boundary at UINT32_MAX - header cannot be allocated in a test.", "anchors": ["src/constbuffer.c:CONSTBUFFER_to_buffer", "src/constbuffer.c:CONSTBUFFER_from_buffer", "src/constbuffer.c:CONSTBUFFER_get_serialization_size", "src/constbuffer.c:CONSTBUFFER_to_fixed_size_buffer", "src/constbuffer_thandle.c:CONSTBUFFER_THANDLE_to_buffer", "src/constbuffer_thandle.c:CONSTBUFFER_THANDLE_from_buffer"]}
{"id": "C10", "title": "CONSTBUFFER deserialization is safe on arbitrary bytes", "statement": "CONSTBUFFER_from_buffer on any memory block and any declared size never reads outside [source, source+size), and returns OK exactly when the block starts with version 1 and a size field whose content fits in the block; otherwise it returns an error and sets no output.", "quantifier": "all byte blocks and sizes", "why_tests_cant": "Parser safety over all byte strings, including size fields near UINT32_MAX that overflow naive sums.", "anchors": ["src/constbuffer.c:CONSTBUFFER_from_buffer", "src/constbuffer_thandle.c:CONSTBUFFER_THANDLE_from_buffer"]}
{"id": "C11", "title": "Batch/unbatch round trip", "statement": "For every non-empty list of CONSTBUFFER_ARRAYs (total buffer count and payload count within 32-bit limits), constbuffer_array_batcher_nv_unbatch(constbuffer_array_batcher_nv_batch(ps)) returns the same number of payloads, each containing the same buffers in the same order.", "quantifier": "all lists of arrays of buffers (any counts, empty arrays included)", "why_tests_cant": "Unbounded shapes of nested lists; tests use three payloads.", "anchors": ["src/constbuffer_array_batcher_nv.c:constbuffer_array_batcher_nv_batch", "src/constbuffer_array_batcher_nv.c:constbuffer_array_batcher_nv_unbatch"]}
{"id": "C12", "title": "Unbatch validates untrusted headers", "statement": "constbuffer_array_batcher_nv_unbatch on an arbitrary array never requests a buffer at an index outside the batch, and returns NULL when the header's per-payload counts add up to more buffers than are present.", "quantifier": "all arrays of buffers with arbitrary header bytes", "why_tests_cant": "The header is 32-bit attacker-controlled data; wrap-around values are not in unit tests.", "anchors": ["src/constbuffer_array_batcher_nv.c:constbuffer_array_batcher_nv_unbatch"]}
{"id": "C13", "title": "Splitting a buffer array preserves content and bounds chunk sizes", "statement": "constbuffer_array_splitter_split(a, max) returns buffers whose concatenation is exactly the concatenation of a's buffers, each at most max bytes and all but the last exactly max bytes; the input is unchanged.", "quantifier": "all arrays of buffers and all max sizes > 0", "why_tests_cant": "Interactions of chunk boundaries with buffer boundaries are combinatorial; tests pick a few alignments.", "anchors": ["src/constbuffer_array_splitter.c:constbuffer_array_splitter_split"]}
{"id": "C14", "title": "Splitting to array-of-arrays preserves content and bounds chunk sizes", "statement": "constbuffer_array_splitter_split_to_array_of_array(a, max) yields arrays whose concatenated bytes equal the bytes of a; each array has at most max bytes and all but the last exactly max bytes; each array owns one reference on each of its buffers; the call fails (returning NULL and keeping nothing) only for lack of memory or when the rounded up number of arrays cannot be computed in 32 bits.", "quantifier": "all arrays of buffers and all max sizes > 0", "why_tests_cant": "Same combinatorics plus empty buffers at boundaries.", "anchors": ["src/constbuffer_array_splitter.c:constbuffer_array_splitter_split_to_array_of_array"]}
{"id": "C15", "title": "CONSTBUFFER_ARRAY behaves as an immutable list of buffers", "statement": "create/add_front/add_back/remove_front/remove_back/create_from_buffer_index_and_count/create_from_array_array/remove_empty_buffers/get_buffer produce exactly the list operation they name and never modify their input array; failures return NULL/error without effects.", "quantifier": "all arrays, indices, counts and allocation outcomes", "why_tests_cant": "Index arithmetic must hold for every count; off-by-one at ends and overflow at UINT32_MAX cannot be enumerated.", "anchors": ["src/constbuffer_array.c:constbuffer_array_create", "src/constbuffer_array.c:constbuffer_array_add_front", "src/constbuffer_array.c:constbuffer_array_remove_front", "src/constbuffer_array.c:constbuffer_array_add_back", "src/constbuffer_array.c:constbuffer_array_remove_back", "src/constbuffer_array.c:constbuffer_array_create_from_buffer_index_and_count", "src/constbuffer_array.c:constbuffer_array_create_from_array_array", "src/constbuffer_array.c:constbuffer_array_remove_empty_buffers"]}
{"id": "C16", "title": "CONSTBUFFER_ARRAY sub-range by offset and count", "statement": "constbuffer_array_create_from_buffer_offset_and_count returns an array whose bytes are the requested byte sub-range: buffers start..start+count-1 with the first cut at start offset and the last at end offset; it never reads outside the array's buffers.", "quantifier": "all arrays and all index/count/offset arguments", "why_tests_cant": "Four interacting arguments over arrays of any size.", "anchors": ["src/constbuffer_array.c:constbuffer_array_create_from_buffer_offset_and_count"]}
{"id": "C17", "title": "CONSTBUFFER_ARRAY total size and equality", "statement": "constbuffer_array_get_all_buffers_size returns the exact total number of bytes, or fails exactly when it does not fit 32 bits; CONSTBUFFER_ARRAY_contain_same / CONSTBUFFER_HANDLE_contain_same decide equality of contents and are equivalence relations.", "quantifier": "all arrays", "why_tests_cant": "Overflow needs > 4 GiB; equivalence laws quantify over triples of arrays.", "anchors": ["src/constbuffer_array.c:constbuffer_array_get_all_buffers_size", "src/constbuffer_array.c:constbuffer_array_HANDLE_contain_same", "src/constbuffer.c:CONSTBUFFER_HANDLE_contain_same"]}
{"id": "C18", "title": "CONSTBUFFER lifetime: memory is released exactly once, when the last reference goes", "statement": "For any history of create / inc_ref / dec_ref / create_from_offset_and_size on CONSTBUFFERs in which every dec_ref pairs with an owned reference, a buffer's content stays readable and unchanged while any handle to it (or to a sub-buffer of it) is owned; the user free function runs exactly once, after the last one is released; when all references are released nothing is leaked.", "quantifier": "all histories of operations over any number of buffers, sub-buffers of sub-buffers included", "why_tests_cant": "Leaks and use-after-free depend on orders of release over chains of sub-buffers; tests follow few orders.", "anchors": ["src/constbuffer.c:CONSTBUFFER_DecRef_internal", "src/constbuffer.c:CONSTBUFFER_CreateFromOffsetAndSize", "src/constbuffer.c:CONSTBUFFER_IncRef", "src/constbuffer.c:CONSTBUFFER_CreateWithCustomFree"]}
{"id": "C19", "title": "CONSTBUFFER sub-buffer window", "statement": "CONSTBUFFER_CreateFromOffsetAndSize(h, off, sz) succeeds exactly when off+sz fits in h (computed without wrap-around) and its content is bytes off..off+sz-1 of h; nested windows compose by adding offsets.", "quantifier": "all contents and all 32-bit offsets/sizes", "why_tests_cant": "The overflow check must hold for all pairs of 32-bit numbers.", "anchors": ["src/constbuffer.c:CONSTBUFFER_CreateFromOffsetAndSize", "src/constbuffer.c:CONSTBUFFER_CreateFromOffsetAndSizeWithCopy"]}
{"id": "C20", "title": "BUFFER behaves as a byte vector and failed calls leave it unchanged", "statement": "Every BUFFER operation (build, append_build, enlarge, shrink, append, prepend, unbuild, fill, clone) transforms the content exactly as documented; length/size/content agree; when an operation returns an error (allocation failure, bad argument) the buffer's content is unchanged.", "quantifier": "all contents, sizes, operation sequences and allocation failures", "why_tests_cant": "Failure atomicity must hold at every failure point of every operation for every content.", "anchors": ["src/buffer.c:BUFFER_build", "src/buffer.c:BUFFER_append_build", "src/buffer.c:BUFFER_enlarge", "src/buffer.c:BUFFER_shrink", "src/buffer.c:BUFFER_append", "src/buffer.c:BUFFER_prepend", "src/buffer.c:BUFFER_fill", "src/buffer.c:BUFFER_clone"]}
{"id": "C21", "title": "STRING behaves as a NUL-terminated character sequence", "statement": "Every STRING operation (construct, construct_n, clone, concat, concat_with_STRING, copy, copy_n, quote, empty, from_byte_array, replace, length, compare) gives the documented sequence; the stored string is always NUL-terminated inside its allocation; failures leave the string unchanged.", "quantifier": "all strings, operation sequences and allocation failures; text arguments outside the string's own block", "why_tests_cant": "Terminator handling must be right for all lengths and sequences of operations.", "anchors": ["src/strings.c:STRING_construct", "src/strings.c:STRING_concat", "src/strings.c:STRING_copy_n", "src/strings.c:STRING_quote", "src/strings.c:STRING_construct_n", "src/strings.c:STRING_replace", "src/strings.c:STRING_compare"]}
{"id": "C22", "title": "STRING_new_JSON produces a JSON string that decodes to its argument", "statement": "For every ASCII C string s, STRING_new_JSON(s) is a valid JSON string literal that decodes to s, it fits exactly the memory allocated, and it fails exactly when s contains a byte >= 128 (or allocation/size overflow).", "quantifier": "all NUL-terminated strings", "why_tests_cant": "Escaping must be right at each character for every combination; buffer-size computation must match for every mix of escapes.", "anchors": ["src/strings.c:STRING_new_JSON"]}
{"id": "C23", "title": "MAP behaves as a finite map", "statement": "After any sequence of Map_Add / Map_AddOrUpdate / Map_Delete / Map_Clone, lookups, containment tests and enumeration agree with an abstract finite map from keys to values (keys unique, insertion order kept); failed calls leave the map unchanged.", "quantifier": "all operation histories over arbitrary keys and values, with allocation failures; Map_AddOrUpdate not given the pointer the map itself handed out for that key", "why_tests_cant": "State-space of histories is unbounded; failures in the middle of two-array updates are rarely exercised.", "anchors": ["src/map.c:Map_Add", "src/map.c:Map_AddOrUpdate", "src/map.c:Map_Delete", "src/map.c:Map_GetValueFromKey", "src/map.c:Map_ContainsKey", "src/map.c:Map_ContainsValue", "src/map.c:Map_Clone", "src/map.c:Map_GetInternals"]}
{"id": "C24", "title": "MAP filter is always enforced", "statement": "A filter callback given at Map_Create is consulted for every Map_Add/Map_AddOrUpdate throughout the life of the map and of its clones: no pair the filter rejects is ever present.", "quantifier": "all histories", "why_tests_cant": "Only particular histories (emptying the map, cloning an empty map, failing a first insertion) can lose the filter.", "anchors": ["src/map.c:Map_DecreaseStorageKeysValues", "src/map.c:Map_Clone", "src/map.c:Map_Add"]}
{"id": "C25", "title": "MAP JSON export", "statement": "Map_ToJSON yields a JSON object text listing the key/value pairs in order with each key and value encoded as by STRING_new_JSON; parsing it gives back the map.", "quantifier": "all maps with ASCII keys/values", "why_tests_cant": "Quoting across all contents and separator placement for all sizes.", "anchors": ["src/map.c:Map_ToJSON"]}
{"id": "C26", "title": "Singly linked list is a sequence", "statement": "After any sequence of add, add_head, remove, remove_if, find, foreach calls the list contains exactly the sequence obtained by the corresponding operations on a mathematical list; head, tail and next pointers never dangle and a node is freed exactly once.", "quantifier": "all operation histories, list lengths, match functions and allocation failures", "why_tests_cant": "Pointer surgery at head/tail/middle in any order; tests cover lists of length three.", "anchors": ["src/singlylinkedlist.c:singlylinkedlist_add", "src/singlylinkedlist.c:singlylinkedlist_add_head", "src/singlylinkedlist.c:singlylinkedlist_remove", "src/singlylinkedlist.c:singlylinkedlist_remove_if", "src/singlylinkedlist.c:singlylinkedlist_find", "src/singlylinkedlist.c:singlylinkedlist_foreach"]}
{"id": "C27", "title": "Doubly linked list is a circular sequence", "statement": "On a well-formed list, DList_InsertTailList/InsertHeadList/RemoveEntryList/RemoveHeadList/RemoveTailList/AppendTailList realise push-back, push-front, erase, pop-front, pop-back and concatenation, keep Flink/Blink mutually inverse, and do not touch nodes outside the lists involved.", "quantifier": "all heaps containing well-formed lists of any length", "why_tests_cant": "Frame conditions and ring integrity quantify over all heaps.", "anchors": ["src/doublylinkedlist.c:DList_InsertTailList", "src/doublylinkedlist.c:DList_InsertHeadList", "src/doublylinkedlist.c:DList_RemoveEntryList", "src/doublylinkedlist.c:DList_RemoveHeadList", "src/doublylinkedlist.c:DList_RemoveTailList", "src/doublylinkedlist.c:DList_AppendTailList"]}
{"id": "C28", "title": "Doubly linked list traversal", "statement": "DList_ForEach calls the action on each element in order exactly once, stops at the first failure or stop request with the documented result, and remains correct when the action removes the element it is given.", "quantifier": "all lists and all actions", "why_tests_cant": "The action may change the list while it is traversed; a test cannot cover all such actions.", "anchors": ["src/doublylinkedlist.c:DList_ForEach"]}
{"id": "C29", "title": "Sliding window average", "statement": "After n additions to a window of width w, the average returned by get is (sum of the last min(n,w) values)/min(n,w), for histories short of integer overflow; before the first addition get returns 0.", "quantifier": "all histories of additions and all window widths", "why_tests_cant": "History-dependent circular indexing: n and w unbounded.", "anchors": ["src/sliding_window_average_by_count.c:sliding_window_average_by_count_add", "src/sliding_window_average_by_count.c:sliding_window_average_by_count_get"]}
{"id": "C30", "title": "Sliding window runs forever without undefined behaviour", "statement": "sliding_window_average_by_count_add can be called any number of times without signed overflow, provided the windowed sum fits int64.", "quantifier": "all histories of any length", "why_tests_cant": "Needs 2^31 calls before the counter overflows; no unit test runs that long.", "anchors": ["src/sliding_window_average_by_count.c:sliding_window_average_by_count_add"]}
{"id": "C31", "title": "async_op context layout", "statement": "For every context_size and every power-of-two context_align, async_op_create returns a context that is aligned as requested, lies with its context_size bytes inside the allocation, does not overlap the hidden back pointer, and async_op_from_context(context) returns that same op.", "quantifier": "all sizes, alignments and allocation base addresses", "why_tests_cant": "Depends on the base address returned by malloc modulo every alignment.", "anchors": ["src/async_op.c:async_op_create", "src/async_op.c:async_op_from_context", "src/async_op.c:get_next_aligned_address", "src/async_op.c:get_prev_aligned_with_size_address"]}
{"id": "C32", "title": "async_op_cancel runs the cancel function exactly once", "statement": "However many threads call async_op_cancel on one op in whatever interleaving, the cancel implementation runs exactly once; every caller gets ASYNC_CANCELLING or, for the one that triggered it, the documented state.", "quantifier": "all numbers of threads and all interleavings", "why_tests_cant": "A schedule-quantified property.", "anchors": ["src/async_op.c:async_op_cancel"]}
{"id": "C33", "title": "Object lifetime tracker bookkeeping", "statement": "After any history, the tracker holds exactly the registered and not yet unregistered/destroyed (key, object) pairs, each pair at most once, no key without objects; register/unregister/act report NEW_KEY/NEW_OBJECT/EXISTS/NOT_FOUND accordingly; failures leave it unchanged.", "quantifier": "all histories over arbitrary keys and objects, with failures of allocation and of the match callbacks", "why_tests_cant": "Unbounded histories and failure points.", "anchors": ["src/object_lifetime_tracker.c:object_lifetime_tracker_register_object", "src/object_lifetime_tracker.c:object_lifetime_tracker_unregister_object", "src/object_lifetime_tracker.c:object_lifetime_tracker_act"]}
{"id": "C34", "title": "Object lifetime tracker destroys in reverse order of registration, exactly once", "statement": "object_lifetime_tracker_destroy_all_objects_for_key calls destroy_object exactly once for every object registered under the key, most recently registered first, with the context given at registration, and forgets the key.", "quantifier": "all histories", "why_tests_cant": "Order over any number of registrations interleaved with unregistrations.", "anchors": ["src/object_lifetime_tracker.c:object_lifetime_tracker_destroy_all_objects_for_key"]}
{"id": "C35", "title": "RC_STRING / RC_PTR release exactly once", "statement": "The memory (or user free function) behind an RC_STRING or RC_PTR is released exactly once, when the last reference is dropped, and never before, for each creation flavour (copied, moved, custom free).", "quantifier": "all histories of reference operations", "why_tests_cant": "Histories of any length and order.", "anchors": ["src/rc_string.c:rc_string_dispose", "src/rc_string.c:rc_string_create_with_custom_free", "src/rc_ptr.c:rc_ptr_create_with_move_pointer"]}
{"id": "C36", "title": "RC_STRING split by character", "statement": "rc_string_utils_split_by_char(s, d) yields exactly (occurrences of d in s)+1 pieces, none containing d, whose concatenation with d between is s.", "quantifier": "all strings and delimiters", "why_tests_cant": "All strings, consecutive/leading/trailing delimiters included.", "anchors": ["src/rc_string_utils.c:rc_string_utils_split_by_char"]}
{"id": "C37", "title": "critical_section gives mutual exclusion without lost wake-ups", "statement": "At most one thread is between critical_section_enter returning and critical_section_leave at any time, for any number of threads; and no reachable state has a thread asleep while the section is free with nobody awake or about to be woken to take it.", "quantifier": "all numbers of threads and all interleavings of atomic steps", "why_tests_cant": "Schedule-quantified.", "anchors": ["src/critical_section.c:critical_section_enter", "src/critical_section.c:critical_section_leave"]}
{"id": "C38", "title": "tp_worker_thread never runs the worker concurrently and never loses a request", "statement": "For any interleaving of schedule_process calls and the threadpool, worker_func never overlaps itself, and after each schedule_process that returned OK a run of worker_func that starts after the call is pending, running-again-requested or happens.", "quantifier": "all interleavings and any number of scheduling threads", "why_tests_cant": "Schedule-quantified; lost-wakeup windows are a few instructions wide.", "anchors": ["src/tp_worker_thread.c:tp_worker_thread_schedule_process", "src/tp_worker_thread.c:on_threadpool_work"]}
{"id": "C39", "title": "worker_thread serialises and never loses a request while open", "statement": "For any interleaving, worker_func runs only on the one worker thread, and a worker_thread_schedule_process that returned OK while the worker stays open is followed by a run of worker_func starting after it.", "quantifier": "all interleavings and any number of scheduling threads", "why_tests_cant": "Schedule-quantified.", "anchors": ["src/worker_thread.c:worker_thread_schedule_process", "src/worker_thread.c:worker_thread_func"]}
{"id": "C40", "title": "Cancellation token cancels at most once and stays cancelled", "statement": "Exactly one cancellation_token_cancel call on a token succeeds whatever the interleaving; is_canceled is false before it and true ever after; every callback registered before it, and not unregistered meanwhile, is called exactly once by it; a registration cannot be dropped while cancel calls callbacks, and after it was dropped its callback is not called.", "quantifier": "all interleavings, any number of threads and registrations", "why_tests_cant": "Schedule-quantified.", "anchors": ["src/cancellation_token.c:cancellation_token_cancel", "src/cancellation_token.c:cancellation_token_is_canceled", "src/cancellation_token.c:cancellation_token_register_notify"]}
{"id": "C41", "title": "Cancellation token never loses a notification", "statement": "Every callback successfully registered with cancellation_token_register_notify on a token that is (or becomes) cancelled is eventually called, exactly once, whatever the interleaving of register and cancel.", "quantifier": "all interleavings of register_notify and cancel", "why_tests_cant": "The window between checking the state and registering is a few instructions; stress tests practically never hit it.", "anchors": ["src/cancellation_token.c:cancellation_token_register_notify", "src/cancellation_token.c:cancellation_token_cancel"]}
{"id": "C42", "title": "Call dispatcher calls every registered target once, in registration order", "statement": "TCALL_DISPATCHER_DISPATCH_CALL calls each currently registered target exactly once, in order of registration; unregistering removes exactly that target; no target is called after its unregistration returned. A dispatch that got the lock returns whatever other calls are made, no call is stuck but while another holds the lock, and when no new calls are made all return (the targets' functions returning).", "quantifier": "all histories of register/unregister/dispatch, with concurrent callers under the lock", "why_tests_cant": "Unbounded histories; exclusion of unregister against dispatch is schedule-quantified.", "anchors": ["inc/c_util/tcall_dispatcher_ll.h:TCALL_DISPATCHER_LL_DISPATCH_CALL_DEFINE", "inc/c_util/tcall_dispatcher_ll.h:TCALL_DISPATCHER_LL_REGISTER_TARGET_DEFINE", "inc/c_util/tcall_dispatcher_ll.h:TCALL_DISPATCHER_LL_UNREGISTER_TARGET_DEFINE"]}
{"id": "C43", "title": "Channel matches pushes and pulls first-in first-out", "statement": "In any history of channel_push/channel_pull/cancel/close, data is delivered at most once, the i-th push not cancelled is matched with the i-th pull not cancelled, and the queue never holds both an unmatched push and an unmatched pull.", "quantifier": "all histories of operations", "why_tests_cant": "Unbounded histories.", "anchors": ["src/channel.c:channel_push", "src/channel.c:channel_pull", "src/channel.c:enqueue_operation", "src/channel.c:dequeue_operation"]}
{"id": "C44", "title": "Channel completes every operation exactly once", "statement": "Every callback accepted by channel_push/channel_pull with result OK is called exactly once (delivered, cancelled or abandoned), and after channel_close nothing is pending.", "quantifier": "all histories and interleavings of push/pull/cancel/close and of the threadpool", "why_tests_cant": "Schedule-quantified; the close/cancel race needs precise timing.", "anchors": ["src/channel.c:execute_callbacks", "src/channel.c:cancel_op", "src/channel.c:abandon_pending_operations", "src/channel.c:channel_close"]}
{"id": "C45", "title": "Watchdog never fires after stop, fires at most once per (re)start", "statement": "After watchdog_stop returns, the expiry callback is not running and is never called again; between start/reset calls it is called at most once; a reset watchdog is armed again with the original timeout.", "quantifier": "all interleavings of timer expiry with reset and stop (calls of reset and stop one at a time for the at-most-once part)", "why_tests_cant": "Schedule-quantified.", "anchors": ["src/watchdog.c:watchdog_stop", "src/watchdog.c:watchdog_reset", "src/watchdog.c:watchdog_expired_callback"]}
{"id": "C46", "title": "One-time global initialisation", "statement": "watchdog_threadpool_init/deinit and thread_notifications_dispatcher_init/deinit, called from any number of threads, run the initialisation body by at most one thread at a time, and get returns the resource only between a completed init and the start of deinit.", "quantifier": "all interleavings", "why_tests_cant": "Schedule-quantified.", "anchors": ["src/watchdog_threadpool.c:watchdog_threadpool_init", "src/watchdog_threadpool.c:watchdog_threadpool_get", "src/thread_notifications_dispatcher.c:thread_notifications_dispatcher_init"]}
{"id": "C47", "title": "TARRAY growth", "statement": "TARRAY_ENSURE_CAPACITY(n) terminates, on success makes capacity >= n (the least doubling of the old capacity), never shrinks, keeps existing elements, never overflows 32 bits, and on failure leaves the array as it was.", "quantifier": "all capacities (old and requested) of 32 bits", "why_tests_cant": "2^64 pairs of capacities; the region above 2^31 cannot be allocated in tests.", "anchors": ["inc/c_util/tarray_ll.h:TARRAY_LL_ENSURE_CAPACITY_DEFINE", "inc/c_util/tarray_ll.h:TARRAY_LL_CREATE_WITH_CAPACITY_AND_CLEANUP_INTERNAL_DEFINE"]}
{"id": "C48", "title": "TWO_D_ARRAY row bookkeeping", "statement": "Rows are independent: after any history of allocate/free/get, get returns the row exactly when it is allocated, out-of-range indices are rejected, no row is freed twice, and disposing the array frees exactly the allocated rows.", "quantifier": "all histories", "why_tests_cant": "Unbounded histories.", "anchors": ["inc/c_util/two_d_array_ll.h:TWO_D_ARRAY_LL_ALLOCATE_NEW_ROW_DEFINE", "inc/c_util/two_d_array_ll.h:TWO_D_ARRAY_LL_FREE_ROW_DEFINE", "inc/c_util/two_d_array_ll.h:TWO_D_ARRAY_LL_GET_ROW_DEFINE"]}
{"id": "C49", "title": "PAGED_SPARSE_ARRAY is a sparse set of slots", "statement": "After any history of allocate/release/get, element i is reported allocated exactly when it has been allocated and not released since; distinct indices never share storage; a page exists exactly when it holds an allocated element; dispose calls the item dispose function exactly once per still allocated element.", "quantifier": "all histories, all indices below max_size, all page sizes whose page fits in size_t (C50 is about the others)", "why_tests_cant": "Bitmap arithmetic for all page sizes (not multiples of 8) and all histories.", "anchors": ["inc/c_util/paged_sparse_array_ll.h:PAGED_SPARSE_ARRAY_LL_ALLOCATE_DEFINE", "inc/c_util/paged_sparse_array_ll.h:PAGED_SPARSE_ARRAY_LL_RELEASE_DEFINE", "inc/c_util/paged_sparse_array_ll.h:PAGED_SPARSE_ARRAY_LL_GET_DEFINE", "inc/c_util/paged_sparse_array_ll.h:PAGED_SPARSE_ARRAY_LL_DISPOSE_DEFINE"]}
{"id": "C50", "title": "PAGED_SPARSE_ARRAY page allocation is large enough", "statement": "Whenever a page is allocated, the memory requested covers page_size items plus the bitmap, for every page_size accepted by PAGED_SPARSE_ARRAY_CREATE and every item size.", "quantifier": "all 64-bit page sizes and item sizes", "why_tests_cant": "The overflow needs page sizes near 2^64/sizeof(T); no test passes such values.", "anchors": ["inc/c_util/paged_sparse_array_ll.h:PAGED_SPARSE_ARRAY_LL_ALLOCATE_PAGE_INTERNAL_DEFINE", "inc/c_util/paged_sparse_array_ll.h:PAGED_SPARSE_ARRAY_LL_CREATE_DEFINE"]}
{"id": "C51", "title": "Flags to string", "statement": "FLAGS_TO_STRING lists, in declaration order and separated by ' | ', exactly the declared flags that are set, followed by UNKNOWN_FLAG(0x........) with exactly the remaining bits when there are any.", "quantifier": "all 32-bit values and all flag tables with pairwise disjoint non-zero flags", "why_tests_cant": "2^32 values for any flag table.", "anchors": ["inc/c_util/flags_to_string.h:FLAGS_TO_STRING_DEFINE_FUNCTION", "inc/c_util/flags_to_string.h:MAKE_SEPARATOR_AND_VALUE"]}
{"id": "C52", "title": "Sync wrapper argument ownership", "statement": "The generated sync wrapper returns OK only if every out argument was copied; if copying any argument fails, every argument already copied is freed exactly once, none not copied is freed, and the result is COPY_ARG_ERROR.", "quantifier": "all numbers of out arguments and all patterns of copy failure", "why_tests_cant": "2^n failure patterns for n arguments, produced by macro expansion.", "anchors": ["inc/c_util/sync_wrapper.h:GENERATE_SYNC_WRAPPER_CALLBACK", "inc/c_util/sync_wrapper.h:GENERATE_SYNC_WRAPPER_FUNCTION"]}
{"id": "C53", "title": "Async retry wrapper calls the user back exactly once", "statement": "For every pattern of synchronous results, asynchronous results, timer values and threadpool failures: if the wrapper returned OK the user callback is called exactly once when the operation completes, otherwise never; the context and the copied arguments are freed exactly once; the delays before retries follow 1,2,4,... capped at 10000 ms and no sleep is started that would cross the timeout. With a timeout the wrapper comes to its end as time goes on.", "quantifier": "all finite patterns of results and times", "why_tests_cant": "Unbounded retry histories.", "anchors": ["inc/c_util/async_retry_wrapper.h:GENERATE_ASYNC_RETRY_WRAPPER_FUNCTION", "inc/c_util/async_retry_wrapper.h:GENERATE_ASYNC_RETRY_WRAPPER_CALLBACK", "inc/c_util/async_retry_wrapper.h:GENERATE_ASYNC_RETRY_WRAPPER_EXECUTE_RETRY_FUNCTION"]}
{"id": "C54", "title": "Filename suffix insertion", "statement": "filename_append_suffix inserts the suffix immediately before the extension of the last path component, or at the end when it has none; directories containing dots are left alone.", "quantifier": "all paths and suffixes", "why_tests_cant": "All strings with dots and separators in any order.", "anchors": ["src/filename_helper.c:filename_append_suffix"]}
{"id": "C55", "title": "External command output lines", "statement": "When external_command_helper_execute succeeds, the returned lines are exactly the lines the command wrote, in order, without their line terminators; it fails rather than return a truncated line.", "quantifier": "all outputs of a command", "why_tests_cant": "All byte streams, lines at the buffer-size boundary included.", "anchors": ["src/external_command_helper.c:external_command_helper_execute"]}
{"id": "C56", "title": "Folder enumeration protocol", "statement": "for_each_in_folder calls the callback for each directory entry in order until a failure or stop request, returns 0 exactly when no failure occurred, and closes the search handle exactly once; for_each_in_sub_folder applies it to each sub-folder except '.' and '..'.", "quantifier": "all folder listings, callbacks and failure points", "why_tests_cant": "Unbounded listings and failure points.", "anchors": ["src/for_each_in_folder.c:for_each_in_folder", "src/for_each_in_sub_folder.c:for_each_in_sub_folder"]}
{"id": "C57", "title": "Array argument helpers keep reference counts balanced", "statement": "async_type_helper copy functions take exactly one reference (or one copy) per element and release everything they took on failure; the matching free releases exactly what copy took; THANDLE_TUPLE_ARRAY and RC_STRING_ARRAY destroy release every non-NULL element exactly once.", "quantifier": "all array lengths and failure points", "why_tests_cant": "Failure at each index of arrays of any length.", "anchors": ["src/async_type_helper.c:constbuffer_array_ptr_copy", "src/async_type_helper.c:constbuffer_array_ptr_free", "inc/c_util/thandle_tuple_array.h:IMPLEMENT_THANDLE_TUPLE_ARRAY_DESTROY", "src/rc_string_array.c:rc_string_array_destroy"]}
{"id": "C58", "title": "UUID parser copes with text that is not NUL terminated", "statement": "uuid_from_string may be given a pointer to characters without a NUL terminator (as its source comment says) and never reads outside them, whether or not they are well formed.", "quantifier": "all memory blocks, terminated or not", "why_tests_cant": "An over-read of an unterminated block is invisible to unit tests, which pass string literals.", "anchors": ["src/uuid_string.c:uuid_from_string"]}
{"id": "C59", "title": "Writable buffers: what is stored is what the sealed buffer holds, and a sealed buffer does not change", "statement": "Bytes stored through the pointer of CONSTBUFFER_GetWritableBuffer (below the size reported) are the bytes of the handle returned by CONSTBUFFER_SealWritableHandle; once the writable handles are gone that content never changes; the memory is freed exactly once, when the last reference of either sort is dropped. The same holds for CONSTBUFFER_THANDLE_*.", "quantifier": "all histories of creating, storing, sealing, referencing and releasing any number of handles, and every allocation outcome", "why_tests_cant": "The lifetime is shared between two kinds of handles and the order of releases is up to the users.", "anchors": ["src/constbuffer.c:CONSTBUFFER_CreateWritableHandle", "src/constbuffer.c:CONSTBUFFER_SealWritableHandle", "src/constbuffer.c:CONSTBUFFER_WritableHandleDecRef", "src/constbuffer_thandle.c:CONSTBUFFER_THANDLE_SealWritableHandle"]}
{"id": "C60", "title": "A constant buffer made from a BUFFER has all its bytes", "statement": "CONSTBUFFER_CreateFromBuffer and CONSTBUFFER_THANDLE_CreateFromBuffer return a buffer with exactly the bytes of the BUFFER, or NULL.", "quantifier": "all BUFFER contents of any length", "why_tests_cant": "Needs BUFFERs of 4 GiB and more.", "anchors": ["src/constbuffer.c:CONSTBUFFER_CreateFromBuffer", "src/constbuffer_thandle.c:CONSTBUFFER_THANDLE_CreateFromBuffer"]}
{"id": "C61", "title": "A channel reports cancelled or abandoned only for a reason", "statement": "The callback of a push or pull is called with CANCELLED only if async_op_cancel was called earlier on the operation handle carrying that request, and with ABANDONED only if the channel was closed earlier and the request was waiting unmatched; so when nobody cancels or closes, every callback that is called reports OK.", "quantifier": "all interleavings of any number of threads pushing, pulling, cancelling, opening and closing", "why_tests_cant": "A spurious result needs a race between several threads.", "anchors": ["src/channel.c:channel_push", "src/channel.c:channel_pull", "src/channel.c:channel_close", "src/channel.c:cancel_op", "src/channel.c:execute_callbacks"]}
{"id": "C62", "title": "The retry wrapper gives up only for a reason", "statement": "The asynchronous retry wrapper reports a timeout, to the caller or to the user's callback, only if there is one and the next delay would have ended after it; a failed call or an error only if the asynchronous function's last refusal was with a result that is not to be retried, or a retry could not be scheduled on the threadpool; invalid arguments, no memory and a failed copy exactly in those cases. Every other refusal is followed by one delay and another attempt.", "quantifier": "all asynchronous functions, results, schedules, timings, numbers of attempts and arguments", "why_tests_cant": "Depends on the timing of every attempt, and on races between the callback and the return of the call.", "anchors": ["inc/c_util/async_retry_wrapper.h:ASYNC_RETRY_WRAPPER"]}
{"id": "C63", "title": "A threadpool worker's resources live exactly as long as it is open", "statement": "A tp_worker_thread holds one threadpool and one work item while it is open and none when it is not, whether it was never opened, failed to open at any point or was closed; each is given up exactly once; when it is not open no call of the worker function is waiting or running; a reopened worker starts anew; destroy, also of an open worker, leaves nothing behind, and nothing is used after its end. Open, close and destroy return, whatever schedule calls are made meanwhile, as long as the worker function does.", "quantifier": "all histories of open, close, schedule and destroy by any number of threads, with any of the creations failing", "why_tests_cant": "Needs races of open, close, schedule and running work, and every failure point.", "anchors": ["src/tp_worker_thread.c:tp_worker_thread_create", "src/tp_worker_thread.c:tp_worker_thread_open", "src/tp_worker_thread.c:tp_worker_thread_close", "src/tp_worker_thread.c:tp_worker_thread_destroy"]}
{"id": "C64", "title": "The channel's list of waiting operations is taken apart correctly", "statement": "channel_close calls the callbacks of exactly the operations that were waiting, each once, oldest first, touches no operation after its callbacks were called, and leaves the channel with no waiting operation; async_op_cancel takes a waiting operation, wherever it waits, out of the line and leaves all the others in their order, and has no effect on the waiting operations when its own is not waiting any more.", "quantifier": "all lists of waiting operations of any length, every address of the operations, and every choice of the users which handles to keep", "why_tests_cant": "The lists are intrusive and are changed while they are traversed; memory is released during the traversal.", "anchors": ["src/channel.c:abandon_pending_operations", "src/channel.c:copy_entry", "src/channel.c:cancel_op", "src/doublylinkedlist.c:DList_ForEach"]}
{"id": "C65", "title": "The hash is a function of exactly the bytes given", "statement": "hash_compute_hash succeeds exactly for a non-NULL buffer, a non-NULL result and a length of 1 to INT_MAX - 1, and then stores a value that depends on the first length bytes only, so that equal bytes have equal hashes wherever they are; in all other cases it fails, reads nothing and leaves the result as it was.", "quantifier": "all buffers, lengths (also those that do not fit an int) and previous values of the result, for any implementation of MurmurHash2", "why_tests_cant": "Lengths near and above 2^31 and 2^32 cannot be covered by examples.", "anchors": ["src/hash.cpp:hash_compute_hash"]}
{"id": "C66", "title": "BUFFER functions own their memory exactly", "statement": "In any program that uses BUFFER handles as documented, whatever allocations fail: at any time what is allocated is exactly the structures and storage of the buffers created and not yet deleted, so nothing leaks, is freed twice or is used after it was freed; a program that deleted all its buffers has nothing allocated; a call changes only the buffer it is given, and the pointers obtained from the other buffers stay valid with the same bytes.", "quantifier": "all histories of calls on any number of buffers, with sources anywhere outside the changed buffer's own storage, and every pattern of allocation failures", "why_tests_cant": "Leaks and double frees hide in the combinations of failing allocations and orders of calls.", "anchors": ["src/buffer.c:BUFFER_create", "src/buffer.c:BUFFER_delete", "src/buffer.c:BUFFER_build", "src/buffer.c:BUFFER_append_build", "src/buffer.c:BUFFER_shrink", "src/buffer.c:BUFFER_append", "src/buffer.c:BUFFER_prepend", "src/buffer.c:BUFFER_clone"]}
{"id": "C67", "title": "STRING functions own their memory exactly", "statement": "In any program that uses STRING handles as documented, whatever allocations fail: at any time what is allocated is exactly the structures and texts of the strings created and not yet deleted, and the user's own blocks not yet given to STRING_new_with_memory, so nothing leaks, is freed twice or is used after it was freed; a program that deleted all its strings has nothing allocated; a call changes only the string it is given, and the pointers obtained with STRING_c_str from the other strings stay valid with the same text.", "quantifier": "all histories of calls on any number of strings, with sources anywhere outside the changed string, and every pattern of allocation and formatting failures", "why_tests_cant": "Leaks and double frees hide in the combinations of failing allocations and orders of calls.", "anchors": ["src/strings.c:STRING_construct", "src/strings.c:STRING_delete", "src/strings.c:STRING_new_with_memory", "src/strings.c:STRING_concat", "src/strings.c:STRING_copy", "src/strings.c:STRING_sprintf", "src/strings.c:STRING_new_JSON", "src/strings.c:STRING_c_str"]}
{"id": "C68", "title": "worker_thread: every call returns and every request is served", "statement": "In every fair execution (a thread that can go on all the time goes on in the end; the user's function returns): worker_thread_open returns, worker_thread_schedule_process returns, worker_thread_close returns, and after a schedule_process that returned OK on an open object a run of the user's function starts that had not been started when the call was made, unless the object is closed first. Nothing is assumed about wake-ups except that a wake call wakes a thread that sleeps.", "quantifier": "all infinite fair executions with any number of calling threads, spurious wake-ups included", "why_tests_cant": "That something happens at last under every schedule cannot be observed by a test, which sees finitely many schedules for a finite time; a lost wake-up shows as a rare hang.", "anchors": ["src/worker_thread.c:worker_thread_open", "src/worker_thread.c:worker_thread_schedule_process", "src/worker_thread.c:worker_thread_close", "src/worker_thread.c:worker_thread_worker"]}
{"id": "C69", "title": "tp_worker_thread: every request is served and nobody sleeps for ever", "statement": "In every fair execution in which the threadpool takes every work item: after tp_worker_thread_schedule_process returned, a run of the user's function starts that had not been started when the call was made; a thread that sleeps while waiting for the state to change is woken. (One particular call may nevertheless never return: there is a fair execution in which another caller always changes the state between its two exchanges.)", "quantifier": "all infinite fair executions with any number of calling threads", "why_tests_cant": "A lost request or a lost wake-up depends on the interleaving of the compare-exchanges of the caller and the worker.", "anchors": ["src/tp_worker_thread.c:tp_worker_thread_schedule_process", "src/tp_worker_thread.c:tp_worker_on_threadpool_work"]}
{"id": "C70", "title": "critical_section: somebody gets in, but perhaps never you", "statement": "In every fair execution in which threads leave the section they entered: while a thread wants to enter, somebody enters again and again, and critical_section_leave returns. There is a fair execution in which one particular thread waits for ever while another enters again and again: the lock is not fair.", "quantifier": "all infinite fair executions with any number of threads", "why_tests_cant": "Deadlock by a lost wake-up and starvation are properties of infinite executions.", "anchors": ["src/critical_section.c:critical_section_enter", "src/critical_section.c:critical_section_leave"]}
{"id": "C71", "title": "watchdog: reset and stop return, and a watchdog left alone fires", "statement": "In every fair execution (the user's callback returns, the timer expires unless it is cancelled) with one call at a time on a watchdog: watchdog_reset returns, watchdog_stop returns, and once the timer is running and nobody is calling, the user's callback is called unless watchdog_reset or watchdog_stop is called first.", "quantifier": "all infinite fair executions, the timer expiring at any time", "why_tests_cant": "Stop waits for the state machine to drain and for the timer's executions; that it does not hang depends on the time at which the timer expires.", "anchors": ["src/watchdog.c:watchdog_start", "src/watchdog.c:watchdog_reset", "src/watchdog.c:watchdog_stop", "src/watchdog.c:watchdog_expired_callback"]}
{"id": "C72", "title": "Channel: every call returns and every callback is called in the end", "statement": "In every fair execution (a thread that can go on goes on in the end, the threadpool runs every work item, user callbacks return, callers cancel only waiting operations and not while a close takes the list): every call of channel_pull, channel_push, channel_open, channel_close and every cancel returns; the callback of every request that was matched, cancelled or abandoned is called; after channel_close was granted the callbacks of all requests accepted before are called, and the close returns with the channel closed.", "quantifier": "all infinite fair executions with any number of threads and requests", "why_tests_cant": "channel_close waits for all executions under way; that it cannot hang, and that no callback is forgotten, is a statement about infinite executions under every schedule.", "anchors": ["src/channel.c:channel_close", "src/channel.c:abandon_pending_operations", "src/channel.c:execute_callbacks", "src/channel.c:cancel_op", "src/channel.c:channel_pull", "src/channel.c:channel_push"]}
{"id": "C73", "title": "Synchronous wrapper: right under every schedule, and it returns", "statement": "Whatever the interleaving of the caller of a synchronous wrapper and the thread that calls the completion callback (which may run before the asynchronous function has returned): when the wrapper has returned, the result and what was done to the out arguments are exactly what running the callback to its end before the wrapper looks gives; the context on the caller's stack is used only while the wrapper has not returned, and no field is read before it was written, provided the wait does not fail; in every fair execution the wrapper returns.", "quantifier": "all lists of out arguments, all outcomes of the copy handlers, all interleavings of caller and callback thread, all infinite fair executions", "why_tests_cant": "tests call the callback from the mocked asynchronous function or after a fixed delay; the lifetime of the stack frame depends on the schedule", "anchors": ["inc/c_util/sync_wrapper.h:GENERATE_SYNC_WRAPPER_FUNCTION", "inc/c_util/sync_wrapper.h:GENERATE_SYNC_WRAPPER_CALLBACK"]}
{"id": "C74", "title": "Thread notifications reach the dispatcher exactly once while the module is initialised", "statement": "The callback the notification DLL calls for a starting or ending thread is the first one registered since the last deregistration, and a registration succeeds exactly if there is none. A thread that starts or ends while no initialisation or deinitialisation of thread_notifications_dispatcher is under way is dispatched exactly once, with the right reason, to the module's dispatcher if the module is initialised, and not at all otherwise; never twice in any case. Between calls the callback is registered with the DLL exactly if the module is initialised. If no thread starts or ends during deinitialisation the dispatcher is never used after it was disposed of (if one does, it can be).", "quantifier": "all histories of registrations, all numbers of threads, all interleavings of their notifications with init and deinit", "why_tests_cant": "the notifications come from the loader, on every thread of the process, at any time; a test cannot place a thread start inside deinit", "anchors": ["thread_notifications_lackey_dll/src/thread_notifications_lackey_dll.c:DllMain", "thread_notifications_lackey_dll/src/thread_notifications_lackey_dll.c:thread_notifications_lackey_dll_init_callback", "src/thread_notifications_dispatcher.c:thread_notifications_lackey_dll_cb", "src/thread_notifications_dispatcher.c:thread_notifications_dispatcher_deinit"]}
{"id": "C75", "title": "The leak check of the test helpers looks at every log", "statement": "leak_log_checker_check_folder says LEAKS_FOUND exactly if some file of the folder that can be opened begins with the leak detector's warning, wherever in the folder it is and whatever the other files contain, and then prints that file completely; it says ERROR exactly if memory runs out or the listing breaks off; no content of a file, of any length, makes it read outside its buffer. (A report that cannot be opened counts as no leak.)", "quantifier": "all folders, all contents of files, all failures of the allocator and of the listing", "why_tests_cant": "unit tests of a test helper run it on a handful of files; the gate it guards depends on it for every log that can be produced", "anchors": ["test_helpers/src/leak_log_checker.c:check_log_file", "test_helpers/src/leak_log_checker.c:leak_log_checker_check_folder"]}
{"id": "C76", "title": "The lifetime tracker's memory", "statement": "Any sequence of register, unregister, destroy-all and act calls on a tracker, whatever blocks malloc hands out (also ones freed before) and whichever allocations fail, touches no freed structure, frees none twice, and answers what the tracker of lists answers; after each history exactly the structures of the keys and objects still registered are allocated, and when nothing is registered nothing is.", "quantifier": "all histories of calls, all matching functions, all choices of malloc, all allocation failures", "why_tests_cant": "the linked lists cross each other (an object's anchor, the key's list head and its anchor are in blocks freed at different times); a use after free needs a particular order of removals and a particular reuse of blocks", "anchors": ["src/object_lifetime_tracker.c:object_lifetime_tracker_register_object", "src/object_lifetime_tracker.c:object_lifetime_tracker_unregister_object", "src/object_lifetime_tracker.c:object_lifetime_tracker_destroy_all_objects_for_key", "src/object_lifetime_tracker.c:object_lifetime_tracker_act"]}
{"id": "C77", "title": "Lifetime of buffer arrays, views and windows", "statement": "Threads that create arrays of buffers (from handles, by adding or removing an element, by joining arrays, by leaving out empty buffers, as a view, from parts of buffers, or by handing over a block of handles), read them and release them, each using only handles the client holds, never touch a buffer or array that was released, in whatever order the steps of the calls come; everything that can be reached from a held handle stays alive and an array holds the same buffers as long as it is held; a new array holds exactly the buffers it is to hold, in order; nothing is freed twice, a block handed over is freed with its array, and once nothing is held everything is freed after finitely many steps of the threads that release.", "quantifier": "all histories of calls, all interleavings of their steps, all allocation failures of parts of buffers, arrays of every size, views of views of any depth", "why_tests_cant": "the references an array, its views and the parts of its buffers hold on one another are given back by whichever thread makes the last decrement, one at a time; a missing or extra count shows only for particular orders of release", "anchors": ["src/constbuffer_array.c:constbuffer_array_create", "src/constbuffer_array.c:constbuffer_array_create_from_buffer_index_and_count", "src/constbuffer_array.c:constbuffer_array_create_from_buffer_offset_and_count", "src/constbuffer_array.c:constbuffer_array_create_from_array_array", "src/constbuffer_array.c:constbuffer_array_create_with_move_buffers", "src/constbuffer_array.c:constbuffer_array_add_front", "src/constbuffer_array.c:constbuffer_array_add_back", "src/constbuffer_array.c:constbuffer_array_remove_front", "src/constbuffer_array.c:constbuffer_array_remove_back", "src/constbuffer_array.c:constbuffer_array_remove_empty_buffers", "src/constbuffer_array.c:constbuffer_array_get_buffer", "src/constbuffer_array.c:constbuffer_array_inc_ref", "src/constbuffer_array.c:constbuffer_array_dec_ref", "src/constbuffer.c:CONSTBUFFER_DecRef"]}
{"id": "C78", "title": "Cancellation token: every call returns, and the cancel reaches every callback", "statement": "In every fair execution every call on a cancellation token returns: a registration or the drop of one that waits while callbacks are called gets its turn, and a cancel comes to the end of its callbacks however many there are. After a successful cancel every callback registered before it is called once in the end, unless its registration is dropped first; a registration with a cancelled token is called back before the registering call returns; and once a registration has been dropped its callback is never called again.", "quantifier": "all infinite executions of any number of threads that register, drop, cancel and ask, with allocation failures anywhere, in which a thread that can go on all the time does so in the end", "why_tests_cant": "that a waiting thread gets its turn, and that a notification comes, are statements about infinite executions; a test that ends has seen neither", "anchors": ["src/cancellation_token.c:cancellation_token_cancel", "src/cancellation_token.c:cancellation_token_register_notify", "src/cancellation_token.c:cancellation_token_is_canceled", "inc/c_util/tcall_dispatcher_ll.h:TCALL_DISPATCHER_LL_DISPATCH_CALL_DEFINE"]}
{"id": "C79", "title": "Sample with retries: one truthful callback, cancel reaches the retry", "statement": "An asynchronous call through the sample module with retries, with a lower layer that may refuse, complete early or late, and ask for a retry any number of times: when the function fails there is no callback; when it succeeds the callback is called exactly once in the end, with a truthful result, after the call counts as ended; no freed memory is used and no reference is released twice. After a cancel every operation of the lower layer that is still running is told to cancel, by the cancel or by the thread that is starting it, and no further retry is started once the lock has seen it. When all is over and the client has released its handle the operation is freed, unless the lower layer refused a retry: then it leaks. As long as the module and the lower layer go on running, the callback of an accepted call comes, provided the call is canceled at some time or the lower layer does not ask for retries for ever; after a cancel at most one more operation of the lower layer is started.", "quantifier": "all interleavings of the caller, the callbacks of the lower layer (before or after its function returns), a cancel, and copies and releases of the handle; any number of retries; failures of the state manager, of allocation and of the lower layer anywhere", "why_tests_cant": "the cancel races with a retry that is started at the same time, and the callback may come before its operation is stored; which of these a test meets depends on the schedule, and the number of retries is unbounded", "anchors": ["samples/async_op_samples_int/ml_async_op_module_with_retries.c:ml_async_op_module_with_retries_execute_async", "samples/async_op_samples_int/ml_async_op_module_with_retries.c:ml_async_op_module_with_retries_on_ll_complete_do_retry", "samples/async_op_samples_int/ml_async_op_module_with_retries.c:on_async_op_ML_ASYNC_OP_MODULE_EXECUTE_CONTEXT_cancel"]}
{"id": "C80", "title": "Sample with a chain of two steps: one callback, and when the cancel is lost", "statement": "An asynchronous call through the sample module that runs two operations of a lower layer one after the other: when the function fails there is no callback; when it succeeds the callback is called exactly once in the end, after the call counts as ended, with the result of the second step, with canceled after a cancel or with an error if the second step was refused; no freed memory is used, no reference is released twice, and when all is over and the client has released its handle everything is freed. After a cancel every operation that is still running is told to cancel, by the cancel or by the thread that is starting it, unless step 1 was over and step 2 accepted before the function stored the operation of step 1: then the cancel goes to the operation of step 1 and never reaches step 2. An error of step 1 is not reported. As long as the module and the lower layer go on running, the callback of an accepted call comes.", "quantifier": "all interleavings of the caller, the callbacks of the lower layer (before or after its function returns), a cancel, and copies and releases of the handle; failures of the state manager, of allocation and of the lower layer anywhere", "why_tests_cant": "the cancel is lost only when the first callback comes between the acceptance of step 1 and the lock after it, a window that a test does not hit unless it is built to", "anchors": ["samples/async_op_samples_int/ml_async_op_module_with_async_chain.c:ml_async_op_module_with_async_chain_execute_async", "samples/async_op_samples_int/ml_async_op_module_with_async_chain.c:ml_async_op_module_with_async_chain_on_ll_complete_step_1", "samples/async_op_samples_int/ml_async_op_module_with_async_chain.c:ml_async_op_module_with_async_chain_on_ll_complete_step_2", "samples/async_op_samples_int/ml_async_op_module_with_async_chain.c:on_async_op_ML_ASYNC_OP_MODULE_WITH_ASYNC_CHAIN_EXECUTE_CONTEXT_cancel"]}
{"id": "C81", "title": "Samples with a worker: exactly one callback however cancel and completion race; life of the module", "statement": "An asynchronous call on one of the two sample modules that do the work themselves (one that cannot cancel its work and answers a cancel at once, one that wakes its worker): when the function fails there is no callback; when it succeeds the callback is called exactly once in the end, however the cancel and the completion race, with the result of the work or, after a cancel, with canceled. When the cancel function of the first module is through, the callback has been called or the worker is just calling it; after a cancel on the second the worker need not wait any longer and reports canceled. The memory of the operation is never used after it is freed, and it is freed when all is over and the client has released its handle. The module is not used after it was destroyed, provided the owner destroys it after the callback; otherwise it may be, because the call counts as ended before the worker asks the module for the result. As long as the module goes on running, the callback of an accepted call comes.", "quantifier": "all interleavings of the caller, the worker, a cancel, copies and releases of the handle, and the destruction of the module by its owner at any time after the call counts as ended; refusals by the state manager, failing allocation, refusals by the pool", "why_tests_cant": "whether the cancel or the completion wins is decided by a single exchange; the use after destruction needs the owner to come between two adjacent statements of the worker", "anchors": ["samples/async_op_samples_int/ll_async_op_module_fake_cancel.c:ll_async_op_module_fake_cancel_execute_async", "samples/async_op_samples_int/ll_async_op_module_fake_cancel.c:ll_async_op_module_fake_cancel_execute_the_async_worker_thread", "samples/async_op_samples_int/ll_async_op_module_real_cancel.c:ll_async_op_module_real_cancel_execute_async", "samples/async_op_samples_int/ll_async_op_module_real_cancel.c:ll_async_op_module_real_cancel_execute_the_async_worker_thread"]}
{"id": "C82", "title": "Sample that cancels everything at close: nothing forgotten, one callback each, life of operations and module", "statement": "The sample module that keeps a list of its pending operations: for any number of concurrent calls, a call that fails is never called back and leaves nothing behind; one that succeeds is called back exactly once, with what the lower layer reported. When a close waits for the calls to end, every operation that the lower layer is still working on has been canceled, or its call is still on its way to see that the module is closing, in which case it cancels the operation itself; when the close is over the lower layer works for no call. An operation is canceled only if a close has begun since its call was granted. No call, completion or close is stuck but while it waits for a lock whose holder can go on, for the lower layer, or, in a close, for the calls to end. If finitely many calls are made, every close returns; if also finitely many closes are, every callback comes. No operation is used after it was freed, nor removed from a list it is not in, whatever happens. When the module is closed and all is over, every operation is freed; until then an operation may be retained although it has completed and its callback was called, exactly if the completion came before the call had put it into the list. The module is not used after it was destroyed provided no call of execute_async is going on then; otherwise it may be.", "quantifier": "all interleavings of any number of calls, their completions at any time (also before the call returns) with any result, repeated opening and closing, and the destruction; refusals by the state manager and by the lower layer, failing allocation", "why_tests_cant": "the completion before the insertion and the close between start and insertion are windows of a few instructions; tests with a lower layer that is always slower never meet them", "anchors": ["samples/async_op_samples_int/hl_async_op_module_cancel_all.c:hl_async_op_module_cancel_all_execute_async", "samples/async_op_samples_int/hl_async_op_module_cancel_all.c:hl_async_op_module_cancel_all_on_ml_complete", "samples/async_op_samples_int/hl_async_op_module_cancel_all.c:hl_async_op_module_cancel_all_on_closing_cancel_all", "samples/async_op_samples_int/hl_async_op_module_cancel_all.c:hl_async_op_module_cancel_all_close_internal"]}
{"id": "C83", "title": "Stack of forwarding sample modules of any height: one callback, life of operations and modules, cancel reaches the bottom", "statement": "Modules that forward an asynchronous call to the module below, stacked to any height above one that does the work: a call that fails is never called back, no layer counts it as going on and every operation created on the way is freed. One that succeeds is called back exactly once, with the result of the work, where everything but success and cancellation has become an error. When the callback runs, no layer counts the call as going on, so that the callback may close any of the modules. A cancel by the client always finds the operations of the layers below and reaches the work. No operation is used before it exists or after it was freed, no module after it was destroyed if the owner destroys them from the top, even while execute_async of some layers has not returned; when all is over and the client has released its handle, the operations of all layers are freed. Every execution comes to an end after a number of steps linear in the height, and while anything is going on some step can be made that waits neither for the client nor for the owner.", "quantifier": "every height of the stack; all interleavings of the call going down and returning, the completion going up at any time (also before the call returns) with any result, a cancel, the release of the handle, and an owner destroying the modules; failures at every layer", "why_tests_cant": "tests stack two modules and complete at one or two chosen points; the completion may overtake the return of execute_async at every layer separately, which is an unbounded number of schedules", "anchors": ["samples/async_op_samples_int/hl_async_op_module.c:hl_async_op_module_execute_async", "samples/async_op_samples_int/hl_async_op_module.c:hl_async_op_module_on_ml_complete", "samples/async_op_samples_int/hl_async_op_module.c:on_async_op_HL_ASYNC_OP_MODULE_EXECUTE_CONTEXT_cancel", "samples/async_op_samples_int/ml_async_op_module.c:ml_async_op_module_execute_async", "samples/async_op_samples_int/ml_async_op_module.c:ml_async_op_module_on_ll_complete"]}
{"id": "C84", "title": "Serializing many buffers into one ever-growing array with a custom allocator", "statement": "CONSTBUFFER_to_buffer used again and again with an allocator that hands out the next bytes of an array grown by realloc: there is no undefined behaviour, the used part of the array is at every time exactly the serializations of the accepted buffers one after the other, in order, also after the array moved and after failures in between; every accepted buffer can be read back from the place at which it was put. A buffer is refused only if its serialization does not fit in 32 bits or memory is missing, and then the array is unchanged. Less than 1000 bytes are wasted and the array grows at most once per 1000 bytes.", "quantifier": "all finite sequences of contents of any size, all patterns of failing realloc", "why_tests_cant": "the sample runs 1000 random sizes with memory always there and never reads the array back", "anchors": ["tests/constbuffer_serialization_sample/main.c:main", "tests/constbuffer_serialization_sample/main.c:awesome_alloc", "src/constbuffer.c:CONSTBUFFER_to_buffer", "src/constbuffer.c:CONSTBUFFER_from_buffer"]}
{"id": "C85", "title": "Cancelling, global initialisation and thread notifications never block", "statement": "A call of async_op_cancel, of watchdog_threadpool_init, deinit or get, of thread_notifications_dispatcher_init or deinit, and the notification of a starting or ending thread never wait for another thread: in every state a call in progress can take its next step, and it returns after a fixed small number of steps of its own (2, 5, 6 and 4), however many steps other threads take in between and even if other threads stop for ever in the middle of their calls.", "quantifier": "all interleavings of any number of threads, including those in which some threads are never scheduled again", "why_tests_cant": "a test cannot stop the other threads at every point; a retry loop or a lock added to one of these functions would show only under contention", "anchors": ["src/async_op.c:async_op_cancel", "src/watchdog_threadpool.c:watchdog_threadpool_init", "src/watchdog_threadpool.c:watchdog_threadpool_deinit", "src/watchdog_threadpool.c:watchdog_threadpool_get", "src/thread_notifications_dispatcher.c:thread_notifications_dispatcher_init", "src/thread_notifications_dispatcher.c:thread_notifications_dispatcher_deinit", "thread_notifications_lackey_dll/src/thread_notifications_lackey_dll.c:DllMain"]}
{"id": "C86", "title": "Folders for leak logs: the folder made is the one returned and the one removed, nothing leaks", "statement": "leak_log_folder_create returns a path exactly if everything it calls succeeds, and then it has asked for exactly that folder; leak_log_folder_destroy removes exactly the folder it is given. Whatever fails, all memory allocated on the way is freed once, except the path returned, which destroy frees.", "quantifier": "all root folder names, names of computers and uuids, all combinations of failures", "why_tests_cant": "tests use one root name; a name that the command interpreter takes apart makes destroy remove another folder", "anchors": ["test_helpers/src/leak_log_folder.c:leak_log_folder_create", "test_helpers/src/leak_log_folder.c:leak_log_folder_destroy", "test_helpers/src/guid_as_string.c:getGuidAsString"]}
{"id": "C87", "title": "GUIDs as text: exactly the texts of uuids are taken, and what is produced is taken back", "statement": "getGuidFromString succeeds exactly for the 36 characters of a uuid with nothing behind them that GUID_from_uuid converts, stores then what it makes of those 16 bytes, and otherwise fails and leaves the GUID as it was; it reads nothing behind the terminator. getGuidAsString gives NULL exactly if no uuid is produced or memory runs out, and otherwise a text that getGuidFromString takes back to the uuid produced.", "quantifier": "all NUL-terminated texts, all uuids, all failures, any conversion to GUID", "why_tests_cant": "the texts accepted are infinitely many strings short of a finite set; tests try a few", "anchors": ["test_helpers/src/guid_as_string.c:getGuidAsString", "test_helpers/src/guid_as_string.c:getGuidFromString"]}
{"id": "C88", "title": "Asserts and mocks agree on RC_STRING handles", "statement": "TEST_THANDLE_RC_STRING_Compare is a strict total order on what the handles stand for (NULL first, then the texts in lexicographic order) and answers 0 exactly for two NULLs or two equal texts; umocktypes_are_equal_THANDLE_RC_STRING takes two arguments for equal exactly in the same cases. Copying an argument takes one reference, freeing the copy gives it back and leaves NULL.", "quantifier": "all handles, NULL or made by the rc_string functions; all reference counts", "why_tests_cant": "an order is a statement about all triples of texts", "anchors": ["test_helpers/src/rc_string_test_type.c:TEST_THANDLE_RC_STRING_Compare", "test_helpers/src/rc_string_test_type.c:umocktypes_are_equal_THANDLE_RC_STRING", "test_helpers/src/rc_string_test_type.c:umocktypes_copy_THANDLE_RC_STRING", "test_helpers/src/rc_string_test_type.c:umocktypes_free_THANDLE_RC_STRING"]}
{"id": "C89", "title": "The sliding window average used by any number of threads behaves as if the calls were made one after the other", "statement": "When any number of threads call add and get on one sliding window, every add that has returned has added its value exactly once, after its call; nothing else is added; and every get returns the average of the last values (as many as the window is wide) as they were at one moment between its call and its return. While a thread changes the window no other thread reads or changes it, undefined behaviour needs the value of a call that takes the sums out of the 64-bit range or the number of values over 2147483647, and the lock never leaves all callers waiting.", "quantifier": "all interleavings of the statements of any number of calls of add and get by any number of threads, all widths, all values whose sums stay in range", "why_tests_cant": "the schedules at statement level are unboundedly many; a test sees those the machine happens to run", "anchors": ["src/sliding_window_average_by_count.c:sliding_window_average_by_count_add", "src/sliding_window_average_by_count.c:sliding_window_average_by_count_get"]}
{"id": "C90", "title": "The object lifetime tracker used by any number of threads: an object is not destroyed while it is acted on, destroyed once, latest first", "statement": "When any number of threads call register, unregister, destroy_all_objects_for_key and act on one tracker, then while an action function runs its object stays registered and no destroy function runs; two destroy functions never run at the same time; every registration ends in at most one of being unregistered once and being destroyed once, with its own destroy function; when one is being destroyed, all that are left of its key were registered earlier, and when the call is about to return none is left; no object is ever registered twice for a key; and each result a call is about to return is true of the registrations at that point. The lock never leaves all callers waiting, with one exception: a destroy function that calls its tracker, or an action function that calls register, unregister or destroy_all_objects_for_key, waits for itself and never returns.", "quantifier": "all interleavings of any number of calls by any number of threads, also from within the callbacks, all keys, objects and notions of sameness", "why_tests_cant": "interleavings of lock operations, list operations and user callbacks are unboundedly many", "anchors": ["src/object_lifetime_tracker.c:object_lifetime_tracker_register_object", "src/object_lifetime_tracker.c:object_lifetime_tracker_unregister_object", "src/object_lifetime_tracker.c:object_lifetime_tracker_destroy_all_objects_for_key", "src/object_lifetime_tracker.c:object_lifetime_tracker_act"]}
