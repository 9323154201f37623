# Formal model of Azure/c-util in Lean 4

This file says what is modelled, how, what is trusted, and where the code
disagrees with the property a user would expect. `properties.jsonl` lists the
properties, `MANIFEST.json` maps each to theorems, `seeded/LOG.jsonl` records the
mutation experiments.

How to read that log: `theorems_failed` lists the theorems of `MANIFEST.json` that
no longer check against the edited model. That includes every theorem that uses a
lemma whose proof broke, so for the transition systems, where one invariant carries
all theorems, the list is longer than the set of statements that became false. It
also means that a failure alone does not show a statement to be false of the edited
program: a proof script can break although the statement still holds. The entries
of the hand-written rounds in which only lemmas failed (240) were listed and the
doubtful ones compared with the published statements; five turned out to be such
cases (`TrackerConc`: result of the action ignored; `CancelToken`: target stays, drop
while dispatching; `Lackey`: callback not cleared, initialises again). Their notes say
so, and theorems were added or strengthened for them. The 143 random edits (`auto`) in
which only lemmas failed were looked through as one-line differences; eleven of them do not
change what the program does, or only drop a check for undefined behaviour from the
model, so that their failed theorems are no evidence of strength. Their notes say so.
This was a reading, not a proof: other entries may have been caught by a proof script
only.

## Layout

* `lean/Verif/Base.lean`: the outcome type `C α` of a C computation
  (`ok a` or `ub`), checked memory reads, small list lemmas.
* `lean/Verif/<Module>/Model.lean`: the model of one C module, function by
  function, each definition citing file and lines of `/repo`.
* `lean/Verif/<Module>/Spec.lean` (or the head of `Props.lean`): the small
  independent specification the theorems refer to.
* `lean/Verif/<Module>/Lemmas.lean`: helper lemmas.
* `lean/Verif/<Module>/Props.lean`: property theorems only, each followed by an
  `example` that meets its hypotheses.
* `lean/Verif/Live.lean`, `lean/Verif/Settle.lean` and `lean/Verif/<Module>/Live.lean`: infinite executions,
  weak fairness and leads-to; the property theorems that something happens at last.

## Trusted base

* Lean 4.33.0 kernel. Axioms: at most `propext`, `Classical.choice`,
  `Quot.sound` (checked with `#print axioms`). No axioms of our own, no `sorry`,
  `native_decide`, `bv_decide`.
* The reading of the C source into the model (done by hand; nothing is executed).
* The assumed semantics of what is outside `/repo` (the `deps` submodules are
  empty in this checkout):
  - `malloc`/`malloc_2`/`malloc_flex`/`realloc*` return NULL or fresh memory of the requested
    size; `malloc_2`, `malloc_flex`, `realloc_2` and `realloc_flex` fail when `n*m (+base)` overflows `size_t`.
    Allocation outcome is an explicit parameter of the models.
  - `size_t` is 64 bits, `int` 32 bits, pointers 8 bytes (x64).
  - `THANDLE`: reference count starting at 1, `dispose` run once at 0, then the memory freed.
  - `interlocked_*`: sequentially consistent atomic operations;
    `wait_on_address` returns spuriously or after a wake;
    `wake_by_address_*` wakes sleeping threads.
  - `srw_lock`: exclusive/shared lock. `sm`: open/close/exec gate
    (exec is granted only while open; `close_begin` blocks new execs and waits for running ones).
  - Fairness, in the `Live.lean` files only: a thread that can make a step at all times makes one
    in the end; a thread asleep in `wait_on_address` is not assumed to wake unless it is woken, except that in
    between a wake-up may be spurious; user callbacks return.
    For the samples (C79, C80, C81, C82) only this much: the module and the layer below it, taken together, make a step if they can at all times;
    likewise for all calls of the dispatcher to return (C42), for open, close and destroy of the threadpool worker (C63), and for the retry wrapper (C53), for which also time is assumed to go on;
    for C83 nothing is assumed, its executions are bounded.
  - `threadpool_schedule_work(_item)`: runs the work once, at any later time, on some thread.
  - `sprintf`-style functions behave per the C standard for the formats used.
* Strings are `List UInt8` without the terminator plus an explicit NUL in memory models.
* `LogError` and friends are no-ops. `LogCriticalAndTerminate` aborts.

Undefined behaviour (out-of-bounds, use of freed or uninitialised memory, signed
overflow/shift) is a distinct outcome `C.ub` in the modules where the property is
about it; elsewhere the definition's comment says why the access is in range or that it is left out.

## Per-property plan

| id | modelled | proof |
|----|----------|-------|
| C01-C04 | `azure_base64.c` byte by byte; output as written cells; decode with checked reads and a buffer of possibly-uninitialised cells | induction over 3-byte / 4-char groups; UB freedom by showing every access in range; uninitialised bytes: negation with witness and a partial theorem for valid text |
| C05-C06 | `memory_data.c` over `BitVec` with C integer promotion, UB for signed shifts | bit-level case analysis, no bit-blasting axioms |
| C07-C08 | `uuid_string.c` on a NUL-terminated memory | explicit evaluation along the 36 characters; nibble tables by `decide` |
| C09-C10 | serialization functions of `constbuffer.c` and `constbuffer_thandle.c` | direct, with 32-bit arithmetic explicit |
| C11-C12 | `constbuffer_array_batcher_nv.c` on lists of buffers, uint32 arithmetic | induction over payloads; wrap-around witness |
| C13-C14 | `constbuffer_array_splitter.c` both loops as written | loop invariants; overflow witness |
| C15-C17 | `constbuffer_array.c` | list refinement; offset/count arithmetic with UB outcome |
| C18-C19 | heap of reference counted nodes for `constbuffer.c` | invariant over all histories (count = owners) |
| C20 | `buffer.c` with allocation oracle | refinement to byte lists |
| C21-C22 | `strings.c` | refinement; JSON decoder as independent spec |
| C23-C25 | `map.c` | refinement to association lists; filter loss witness |
| C26-C28 | `singlylinkedlist.c`, `doublylinkedlist.c` on a pointer heap | separation-style invariant (path/ring) |
| C29-C30 | `sliding_window_average_by_count.c` | invariant relating the circular buffer to the last w values; overflow witness |
| C31-C32 | `async_op.c` addresses as 64-bit numbers; cancel as interleaving | arithmetic; invariant |
| C33-C34 | `object_lifetime_tracker.c` | refinement to association list of object stacks |
| C35-C36 | `rc_string.c`, `rc_ptr.c`, `rc_string_utils.c` | history invariant; split/join |
| C37-C46 | interleaving machines: one transition per atomic step of the C code | inductive invariants over all reachable states; race witnesses as explicit schedules |
| C47-C50 | `tarray_ll.h`, `two_d_array_ll.h`, `paged_sparse_array_ll.h` | refinement, 32/64-bit arithmetic |
| C51-C53 | macro-generated code instantiated for arbitrary argument lists | induction over the list / event history |
| C59-C60 | writable handles and `CreateFromBuffer` of `constbuffer.c` and `constbuffer_thandle.c` on a heap of counted objects | invariant over all histories; truncation witness |
| C61 | the same transition system of `channel.c`, with a history of the calls of cancel and close | invariants over all executions: a result is cancelled only after a cancel, abandoned only after a close |
| C62 | the same transition system of `async_retry_wrapper.h`, with a history of the refusals and scheduling failures | invariant over all executions tying each way of giving up to what happened |
| C63 | `tp_worker_thread.c` create, open, close, destroy as a transition system, with the handles held and given up | invariant over all interleavings |
| C64 | the list handling of `channel.c` on the heap of `Verif/DList` (flink/blink memory with validity) | induction along the list with the list predicate `Rep` |
| C65 | `hash.cpp` around an arbitrary MurmurHash2 | case analysis |
| C66 | `buffer.c` again, with every allocation and release, on a heap of structures and blocks | refinement of the value model (C20) with exact ownership, induction over histories |
| C67 | `strings.c` again, with every allocation and release, on a heap of structures and blocks, and the user's own blocks | refinement of the value model (C21) with exact ownership, induction over histories |
| C68 | the transition system of C39 with infinite executions and weak fairness per thread (`Verif/Live.lean`: runs, fairness, leads-to, ranking) | invariants plus leads-to chains; the waits by ranking functions |
| C69 | the transition system of C38 likewise | as C68 |
| C70 | the transition system of C37 likewise | as C68; starvation by an explicit periodic execution |
| C71 | the transition system of C45 likewise | as C68 |
| C72 | the transition system of C43 and C44 with infinite executions and weak fairness | as C68; the wait of the close by the tokens of executions under way |
| C73 | `sync_wrapper.h` again, the caller and the callback thread as a transition system with the lifetime of the stack frame | inductive invariant relating the copying so far to the sequential reading; leads-to chain with a ranking |
| C74 | `thread_notifications_lackey_dll.c` and the callback of `thread_notifications_dispatcher.c` with any number of threads starting and ending | list induction over registrations; inductive invariant; race witnesses |
| C75 | `leak_log_checker.c` on top of the model of `for_each_in_folder` (C56) | induction over the entries; chunks of a file by induction |
| C76 | `object_lifetime_tracker.c` statement by statement on a heap, on top of `DList` (C18-C20) | invariant `Rep`: one doubly linked list of keys and one of objects per key, disjoint; each call refines the tracker of lists (C33, C34) |
| C77 | `constbuffer_array.c` and the reference counts of `constbuffer.c` on one heap of objects, a step for each atomic operation | invariant: the count of an object = references of the client + of the other objects + of the call that builds it; no leak by the highest address still alive |
| C78 | C40's model of `cancellation_token.c` under weak fairness | leads-to: one dispatch in a token's life, ranked by the callbacks left; a thread that waits for the lock gets it after the dispatch |
| C79 | the sample `ml_async_op_module_with_retries.c`: one call, the completions of all operations of the lower layer, cancel, handles; references as the set of their holders | inductive invariants over the transition system; witness executions |
| C80 | the sample `ml_async_op_module_with_async_chain.c`: one call, the completions of its two operations of the lower layer, cancel, handles | as C79 |
| C81 | the samples `ll_async_op_module_fake_cancel.c` and `ll_async_op_module_real_cancel.c`: one call, the worker, cancel, handles, the end of the module | as C79 |
| C82 | the sample `hl_async_op_module_cancel_all.c`: any number of calls and completions, the list of pending operations with its lock, open, close, destroy | invariants on where the reference for the list is; induction over all executions |
| C83 | the samples `hl_async_op_module.c` and `ml_async_op_module.c`: a stack of n of them above a module that works, one call down and its completion up, cancel, release, destroy | invariants indexed by the layer, uniform in n; induction over all executions |
| C84 | the sample `tests/constbuffer_serialization_sample/main.c`: an allocator carving the next bytes from an array grown by realloc, under `CONSTBUFFER_to_buffer` | invariant of the array, induction over all sequences of contents and failures |
| C85 | the transition systems of C32, C46 and C74 | enabledness of every call in progress; a rank that every own step lowers |
| C86 | the test helpers `leak_log_folder.c` and getGuidAsString: every failure, the memory and the commands given to `system`; a small specification of how the command interpreter takes a command apart | case analysis over the failures; induction over the names |
| C87 | the test helper `guid_as_string.c` on top of the model of `uuid_string.c` | from C07 and C08, and the length of the texts of uuids |
| C88 | the test helper `rc_string_test_type.c`: comparison, equality for mocks, copy and free with reference counts | from `compare_spec` of C21; case analysis |
| C89 | `sliding_window_average_by_count_add` and `_get` as transition systems, one statement at a time, under the reader/writer lock | invariant over all interleavings: lock discipline, and the window of the thread inside is the statements done so far applied to the window of the history |
| C90 | `object_lifetime_tracker.c` as a transition system: threads are stacks of calls, user callbacks may call the tracker again | invariant over all interleavings: lock discipline of the stacks, numbered registrations in order, each number in exactly one of registered, unregistered, destroyed; the frame of a call that is about to return carries its result and what the action returned |
| C54-C57 | `filename_helper.c`, `external_command_helper.c`, `for_each_in_*folder.c`, array helpers | list induction |

Not modelled: the printing and the registration of types in `rc_string_test_type.c` of the test helpers; the samples not named above; MurmurHash2 (its source is not in the repository; `hash.cpp` is modelled for any such function);
logging; Windows API beyond the assumed contracts; performance; the floating-point
rounding of the average in the sliding window (the model returns the exact numerator and denominator).

## Disagreements found between the code and the expected property

(kept current as the proofs proceed; each has a Lean witness unless marked "note")

* C04 `Azure_Base64_Decode*` (azure_base64.c): for text with misplaced padding or characters
  outside the alphabet the result contains bytes never written. Witnesses `A===` and `AA*A`.
* C06 `read_uint32_t`, `read_int32_t`, `read_int64_t` (memory_data.c): `source[0] << 24` with
  `source[0] >= 128` shifts into the sign bit of `int` (undefined in ISO C before C23/C++20). The
  models have two dialects, `iso` and `wrap`.
* C10 `CONSTBUFFER_from_buffer` (constbuffer.c) inherits C06.
* C58 `uuid_from_string` (uuid_string.c:130): documented for unterminated input, but the error path
  prints the input with `%s`.
* C12 `constbuffer_array_batcher_nv_unbatch`: `current_index + payload_buffer_count` wraps in 32 bits; the header
  `00000001 FFFFFFFF` with no buffer behind it is accepted and yields 2^32-1 NULL handles.
* C13 `constbuffer_array_splitter_split` (constbuffer_array_splitter.c:78): `total + max - 1` wraps in 32 bits, the block of
  handles then has no cell and the first store is out of bounds (two bytes and max UINT32_MAX are enough). The
  same rounding in `..._split_to_array_of_array` (line 296) only makes the call fail.
* C16 `constbuffer_array_create_from_buffer_offset_and_count` with a range of zero buffers: reads `buffers[-1]`-like
  cells out of bounds, or leaks two references.
* C20 (side finding) `BUFFER_build`/`BUFFER_append_build` (buffer.c:151-254): a source inside the buffer's own block (nothing forbids
  it) is read after `realloc` released the block.
* C21 (side finding) `STRING_concat_with_STRING(s, s)` (strings.c:450): the `memcpy` ranges overlap (the terminator is
  overwritten while it is being copied); `STRING_concat`/`STRING_copy_n` with the string's own characters read released memory.
* **C24 (MAP filter)** — false. `Map_DecreaseStorageKeysValues` (map.c:220-259) clears the filter when the count goes from 1 to 0: deleting the last entry, or a
  first insertion whose string copies fail, silently removes the filter (`filter_lost_by_delete`, `filter_lost_by_failed_insert`); `Map_Clone` of an empty map
  (map.c:127-131) drops it as well (`filter_lost_by_clone`).
* side finding next to C23: `Map_AddOrUpdate(m, k, Map_GetValueFromKey(m, k))` reads the value after `realloc` released it (`addOrUpdate_own_value_ub`).
- **C28 (side condition)** `DList_ForEach` leaves `continueProcessing` uninitialised (doublylinkedlist.c:152): an action that returns 0 without storing into it makes the loop read an indeterminate value (`DList.forEach_unset_ub`).
- **C30** is false: `next_available_slot` is an `int32_t` that is incremented for ever; the 2^31st `sliding_window_average_by_count_add` is signed overflow whatever the values (`Sliding.slot_overflow`; on a wrapping target the index then becomes negative). Also `next_count - counts[...]` can overflow `int64_t` although every windowed sum fits (`Sliding.difference_overflow`). Proved instead: `Sliding.runs_partial`.
- **C33 (side findings)** `object_lifetime_tracker_register_object` answers `MU_FAILURE` for bad arguments where its requirements say `OBJECT_LIFETIME_TRACKER_REGISTER_OBJECT_ERROR` (object_lifetime_tracker.c:209; `Tracker.register_bad_argument_result`). `object_lifetime_tracker_destroy` on a tracker with registrations leaks a structure per key and object (`Tracker.destroy_leaks`).
- `rc_string_create_with_vformat` (src/rc_string.c:140-148) adds 1 to an `int` length before testing for `INT_MAX`:
  a text of exactly `INT_MAX` characters is a signed overflow (`RcString.vformat_overflow_ub`).
- `rc_string_utils_split_by_char` (src/rc_string_utils.c:33-46) counts pieces in a `uint32_t`: with 2^32 - 1 delimiters
  the array has no elements and the first piece is stored through NULL (`RcSplit.split_wraps_ub`); with 2^32 the
  string comes back unsplit (`RcSplit.split_wraps_wrong`).  C36 is proved below that.
- PAGED_SPARSE_ARRAY (inc/c_util/paged_sparse_array_ll.h:231-242) computes the size of a page without an overflow check.
  With 8 byte items and page size 8 * 283796062672454641, which CREATE accepts, a page is allocated with fewer than 65 bytes of
  items and the bitmap is then cleared far outside it (`Paged.page_size_overflow`; in general `Paged.allocate_wraps_ub`).
  C50 holds exactly for the page sizes that fit (`Paged.page_size_iff`).
- **filename_helper.c**: the prefix is printed with `%.*s` and an `int` precision taken from a pointer difference. For names whose last dot is 4 GiB or more from the start the precision wraps and the name is cut (`Filename.huge_name_cut`, `Filename.huge_name_wrong`). Only `\` ends the search for the extension, so `/a.b/c` becomes `/a_1.b/c`.
- **external_command_helper.c**: a carriage return inside a line ends the line there and the rest is dropped (`External.carriage_return_cuts`); a line of exactly the buffer size before CR LF produces an extra empty line (`External.crlf_extra_line`); a last line without line feed is an error (`External.unterminated_fails`); the pipe is not closed when reading fails (`External.pipe_leak`).
- **flags_to_string.h**: a flag whose value is 0 is listed for every value (`Flags.zero_flag_listed`), since `(x & 0) == 0`.
- **sync_wrapper.h**: after a failed copy the copies already made are freed but the caller's variables keep the freed values. If `InterlockedHL_WaitForValue` fails the function returns while the callback may still write to its stack frame (outside the model: the log is `none`).
- **async_retry_wrapper.h**: SRS_ASYNC_RETRY_WRAPPER_02_003 promises the out arguments "as they were received" but for the ENUM on an asynchronous timeout; the code passes the error values for all others (`Retry.timeout_drops_values`).
- **tp_worker_thread.c:300**: the result of `threadpool_schedule_work_item` is ignored. If it fails `tp_worker_thread_schedule_process` returns OK, the state stays EXECUTING, and no request, this or later, is ever run (`TpWorker.schedule_failure_loses_all`).
- **tp_worker_thread.c:306**: `tp_worker_thread_schedule_process` can block for as long as a run of the worker function, if another thread schedules between its two exchanges (`TpWorker.schedule_can_block`).
- **worker_thread.c:133**: closing drops a request that was accepted (`WorkerThread.close_drops_request`). The branch at :259-267 is dead (`WorkerThread.never_finds_close`).
- **C41 is false: a notification can be lost** (`CancelToken.notification_lost`). `cancellation_token_register_notify` reads the state (src/cancellation_token.c:155) and registers the target later (:172). If a whole `cancellation_token_cancel` takes place in between, the registration is returned, the token is cancelled, and the callback is never called (`lost_forever`). Re-checking the state after registering, or registering under the lock, would close the window.
- **A callback that drops its own registration deadlocks** (`Dispatcher.frozen_while_dispatching`). `DISPATCH_CALL` holds the lock shared while it calls the targets (inc/c_util/tcall_dispatcher_ll.h:251-261) and `UNREGISTER_TARGET` wants it exclusively (:223), so a target that unregisters (or registers) anything on the same dispatcher waits for its own thread.
- `cancellation_token_register_notify` returns NULL both when it failed and when it called the callback at once (src/cancellation_token.c:156-159): the caller cannot tell "never called" from "already called".
- `src/watchdog.c:177`: `watchdog_reset` ignores the result of `threadpool_timer_restart`; when it fails the watchdog is left unarmed and nobody is told (`Watchdog.restart_failure_is_silent`).
- `src/watchdog.c:153,192`: reset or stop called from within the expiry callback waits for the callback itself, for ever (`Watchdog.waits_for_callback`).
- `src/watchdog_threadpool.c:107-117`: `watchdog_threadpool_get` reads the state and copies the pointer in separate steps: overlapping a deinit it can take a reference to a pool already disposed of (`OnceInit.Pool.get_race`).
- `src/thread_notifications_dispatcher.c:46-85`: the state is read and written without protection: of two inits at the same time one succeeds and the other, refused by the lackey, throws away the dispatcher (and leaks the first one); the module stays initialised with a NULL dispatcher (`OnceInit.Notif.two_inits`).
- **C44 is false in several ways** (src/channel.c).
  `async_op_cancel` on an operation whose callbacks were called dereferences a NULL channel: `execute_callbacks` has dropped it at :271 and `cancel_op` uses it at :304 without a test (`Channel.cancel_after_completion_is_undefined`).
  A cancel that got in before a close finds the operation in the list `abandon_pending_operations` is emptying without the lock (:110-120): both run its callbacks (`Channel.cancel_races_with_close`).
  `cancel_op` follows the link left in an entry already removed (:316-319), which may be that of a released operation or of a list head on a stack that is gone (`Channel.cancel_follows_dangling_link`).
- `src/channel.c:418-448`, `:335-341`: when `threadpool_schedule_work` fails, the operation that was waiting has already left the list: its callback is never called and `channel_close` never returns (`Channel.schedule_failure_loses`, `Channel.schedule_failure_in_cancel_loses`, `Channel.lost_forever`).
- `src/channel.c:329-331`: a cancel after the match still turns the result into CANCELLED, although the data is passed to the pull callback (`Channel.cancel_after_match_delivers_cancelled`).
- **C59 (side condition)** `CONSTBUFFER_SealWritableHandle` (constbuffer.c:721-736) returns the same object: a user who kept another writable reference (`CONSTBUFFER_WritableHandleIncRef`) can change a sealed buffer under its readers (`Writable.sealed_can_change`). `CONSTBUFFER_THANDLE_SealWritableHandle` copies and does not have this.
- **C60** is false for 4 GiB and more: `CONSTBUFFER_CreateFromBuffer` (constbuffer.c:145) and its THANDLE twin (constbuffer_thandle.c:179) convert `BUFFER_length` to `uint32_t`; the result silently has the length modulo 2^32 (`Writable.from_buffer_truncates`).
- **C66 (note)** `BUFFER_clone` (buffer.c:663) of a buffer without storage calls `memcpy(dst, NULL, 0)`, undefined in ISO C before C2y; the model takes it to copy nothing.
- **C67 (side findings)** `STRING_sprintf` (strings.c:622) gives `vsnprintf` the bound `s1Length + s2Length + 1` although only `s2Length + 1` bytes are left behind `s1->s + s1Length`: it does not protect against text that grew between the two passes. `STRING_from_byte_array(NULL, 0)` calls `memcpy(…, NULL, 0)` (strings.c:865), which C11 leaves undefined; the model takes it to do nothing. Sources inside the changed string are read after `realloc` released them (`StringHeap.own_source_undefined`).
* `critical_section` (C70) is not fair: in `starvation_possible` every thread keeps making its steps and still one thread
  never gets in, because a thread that leaves may enter again before the thread it woke has run. The documentation does not promise
  fairness. `watchdog_stop` and `watchdog_reset` (C71) called from the watchdog's own callback would wait for that callback to end
  and hang; the documentation does not say so.
- **A call of tp_worker_thread_schedule_process may never return, although every request is served** (`src/tp_worker_thread.c:288-310`). A caller whose exchange fails starts its loop again. `TpWorker.call_may_never_return` is an infinite fair execution in which another thread keeps changing the state between the read and the exchange of the first. The requests are all served (`request_served`), so nothing is lost; only the caller is delayed without a bound.
- **If the wait of a synchronous wrapper fails, the callback writes to a stack frame that is gone** (`inc/c_util/sync_wrapper.h:283-287`). The wrapper returns SYNC_WRAPPER_OTHER_ERROR while the asynchronous operation is still to call back with the address of the local context. Witness `SyncWait.late_callback`; while the wait does not fail, `SyncWait.context_safe`. Even then InterlockedHL_SetAndWake may call wake on the address of the frame after the wrapper has returned (`SyncWait.wake_after_return`); that uses the address only.
- **A thread that starts or ends during thread_notifications_dispatcher_deinit can use the dispatcher after it was disposed of** (`src/thread_notifications_dispatcher.c:39`, `:104-107`). The callback reads the global dispatcher without taking a reference; deinit clears the callback but does not wait for those that have been called. Witness `Lackey.deinit_races`; safe when nothing overlaps, `Lackey.calm_safe`.
* C79 sample `ml_async_op_module_with_retries.c:258-263`: when the lower layer refuses the retry, the reference that was taken for its
  callback (`async_op_ref_for_callback`, :254-255) is not released, so the operation is never freed (`refused_retry_leaks`); the failing path of
  execute_async releases it (:436). Also, by design (:304), the call counts as ended before the callback is called, so a close of the module may be over
  before the callback comes (`callback_after_close`).
* C80 sample `ml_async_op_module_with_async_chain.c:319,426`: the step counter is meant to keep execute_async from storing the operation of a first step that is already
  over, but the completion of step 1 does not advance it before execute_async does (0 to 1): at its lock execute_async always finds 0 (`always_stored`). If the completion of
  step 1 gets to its second lock first, its exchange 1 to 2 fails, step 2 is not stored, and execute_async then stores the operation of step 1: a later cancel is sent to that and never to
  step 2 (`cancel_lost`, `lost_forever`).
* C80 sample `ml_async_op_module_with_async_chain.c:259`: the result of step 1 is not looked at; if step 1 fails and step 2 does not, the client is told OK (`error_of_step_1_ignored`).
* C81 samples `ll_async_op_module_fake_cancel.c:273-280`, `ll_async_op_module_real_cancel.c:270-282`: the worker calls sm_exec_end and only then reads the result from the module
  (`get_underlying_result(async_op_context->handle)`); the owner's close and destroy may come in between and free the module (`module_used_after_destroy`). (Note: if releasing the thread pool of c_pal waits for running work this is
  left for work that completes in the thread of the caller.)
* C81 note: `ll_async_op_module_real_cancel_destroy` (ll_async_op_module_real_cancel.c:128-149) does not call srw_lock_ll_deinit for the lock it initialised at :91; the other module does (ll_async_op_module_fake_cancel.c:146).
* C82 sample `hl_async_op_module_cancel_all.c:350-380`: the operation is put into the list of pending operations after the lower layer was called; if the completion has already been through by then, nobody takes the
  operation out again before the next close: memory, with the reference on the operation of the lower layer, is retained for as long as the module is open (`completed_and_retained`, `retained_until_close`, `retained_only_late`).
* C82 sample `hl_async_op_module_cancel_all.c:269,364`: the completion ends the call with sm_exec_end, although execute_async may not have returned and will still take the lock of the module; an owner who closes and destroys the module after the callback makes it use freed memory (`module_used_after_destroy`).
* C82 note: `hl_async_op_module_cancel_all_destroy` (hl_async_op_module_cancel_all.c:162-175) does not call srw_lock_ll_deinit for the lock it initialised at :90; `is_closing` is written at :203 without the lock while a late execute_async may read it at :366.
- C86 (test helper): `leak_log_folder_create` and `leak_log_folder_destroy` put the path unquoted into `mkdir` and `rmdir /s /q` commands (`test_helpers/src/leak_log_folder.c:51`, `:97`). With a space (or tab, comma, semicolon, equals sign) in the name of the root, the folder returned is not the one made, and destroy removes, recursively, the folder named by the part before the space (`CUtil.LeakFolder.other_folder_removed`).
- C88 (note) `test_helpers/src/rc_string_test_type.c`: for an RC_STRING whose text pointer is NULL (no rc_string function makes one) the assert helper says it equals itself and the mock helper says it does not (`TestHelpers.null_text_disagrees`).
- **C90 (finding)** `object_lifetime_tracker.c:444,524`: the destroy functions are called with the lock held exclusively and the action function with the lock held shared. A destroy function that calls any function of its tracker, or an action function that calls register, unregister or destroy_all_objects_for_key, waits for itself for ever (`TrackerConc.reentrant_hangs`). The documentation warns of this for action functions only.
* note: `CONSTBUFFER_CreateFromBuffer` (constbuffer.c:145) truncates the `size_t` length of a BUFFER to `uint32_t`.
* note: `memcpy(p, NULL, 0)` is treated as a no-op.
