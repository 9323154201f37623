{
 "claims": [
  {
   "property": "C01",
   "status": "proved",
   "theorems": [
    "CUtil.Base64.decode_encode"
   ],
   "note": "Every byte string; encoder and decoder models with bounds-checked memory."
  },
  {
   "property": "C02",
   "status": "proved",
   "theorems": [
    "CUtil.Base64.encode_eq_rfc4648",
    "CUtil.Base64.encode_safe",
    "CUtil.Base64.encode_format"
   ],
   "note": "Equality with an arithmetic RFC 4648 specification."
  },
  {
   "property": "C03",
   "status": "proved",
   "theorems": [
    "CUtil.Base64.decode_safe",
    "CUtil.Base64.decode_rejects",
    "CUtil.Base64.decode_no_memory",
    "CUtil.Base64.decode_result"
   ],
   "note": "All C strings, all allocation outcomes."
  },
  {
   "property": "C04",
   "status": "partial",
   "theorems": [
    "CUtil.Base64.decode_exposes_uninitialised",
    "CUtil.Base64.decode_exposes_uninitialised_inner",
    "CUtil.Base64.decode_initialised_partial",
    "CUtil.Base64.decode_uninitialised_iff"
   ],
   "note": "False of the code: negation with witnesses 'A===' and 'AA*A'; holds for well formed text; exact criterion given."
  },
  {
   "property": "C05",
   "status": "proved",
   "theorems": [
    "CUtil.MemoryData.write_unsigned_layout",
    "CUtil.MemoryData.write_signed_layout",
    "CUtil.MemoryData.bytes_roundtrip",
    "CUtil.MemoryData.bytes_roundtrip_signed",
    "CUtil.MemoryData.u8_u16_roundtrip",
    "CUtil.MemoryData.u32_roundtrip",
    "CUtil.MemoryData.u64_roundtrip",
    "CUtil.MemoryData.signed_roundtrip",
    "CUtil.MemoryData.uuid_roundtrip",
    "CUtil.MemoryData.write_out_of_bounds"
   ],
   "note": "32 bit and signed 64 bit readers in the wrapping dialect; see C06 for ISO C."
  },
  {
   "property": "C06",
   "status": "partial",
   "theorems": [
    "CUtil.MemoryData.read_defined",
    "CUtil.MemoryData.read_iso_iff",
    "CUtil.MemoryData.read_undefined_behaviour",
    "CUtil.MemoryData.read_value_partial"
   ],
   "note": "False under ISO C (shift into the sign bit): negation with witnesses and exact iff; holds with wrapping shifts."
  },
  {
   "property": "C07",
   "status": "proved",
   "theorems": [
    "CUtil.Uuid.to_string_denotes",
    "CUtil.Uuid.uuid_roundtrip"
   ],
   "note": ""
  },
  {
   "property": "C08",
   "status": "proved",
   "theorems": [
    "CUtil.Uuid.from_string_accepts",
    "CUtil.Uuid.from_string_sound",
    "CUtil.Uuid.from_string_safe",
    "CUtil.Uuid.from_string_ok_iff",
    "CUtil.Uuid.from_string_text_only",
    "CUtil.Uuid.from_string_null"
   ],
   "note": "NUL terminated input; see C58 for unterminated input."
  },
  {
   "property": "C09",
   "status": "proved",
   "theorems": [
    "CUtil.ConstBuffer.to_buffer_format",
    "CUtil.ConstBuffer.serialization_size_eq",
    "CUtil.ConstBuffer.to_fixed_size_buffer_format",
    "CUtil.ConstBuffer.to_fixed_size_buffer_too_big",
    "CUtil.ConstBuffer.serialization_roundtrip",
    "CUtil.ConstBuffer.thandle_same",
    "CUtil.ConstBuffer.writers_invalid_args"
   ],
   "note": "All contents up to the 32 bit limit. Reading back the size uses read_uint32_t, so sizes of 2^31 and more need the wrapping dialect (see C06)."
  },
  {
   "property": "C10",
   "status": "partial",
   "theorems": [
    "CUtil.ConstBuffer.from_buffer_safe_partial",
    "CUtil.ConstBuffer.from_buffer_ok_iff",
    "CUtil.ConstBuffer.from_buffer_outcomes",
    "CUtil.ConstBuffer.from_buffer_iso_undefined",
    "CUtil.ConstBuffer.from_buffer_invalid_args",
    "CUtil.ConstBuffer.thandle_from_buffer_no_memory"
   ],
   "note": "Never out of bounds and accepts exactly the format, with wrapping shifts. Under ISO C a size byte >= 128 is a signed shift overflow inside read_uint32_t: witness from_buffer_iso_undefined."
  },
  {
   "property": "C11",
   "status": "proved",
   "theorems": [
    "CUtil.Batcher.batch_format",
    "CUtil.Batcher.batch_fails",
    "CUtil.Batcher.batch_unbatch_roundtrip"
   ],
   "note": "All payload lists within the 32 bit limits, all allocation outcomes. Counts of 2^31 and more need the wrapping dialect (C06)."
  },
  {
   "property": "C12",
   "status": "partial",
   "theorems": [
    "CUtil.Batcher.unbatch_validates_partial",
    "CUtil.Batcher.unbatch_malformed",
    "CUtil.Batcher.unbatch_invalid",
    "CUtil.Batcher.unbatch_wraps"
   ],
   "note": "Proved for every malformed header and for headers whose counts do not wrap the index computation. False of the code for larger counts: witness unbatch_wraps."
  },
  {
   "property": "C13",
   "status": "partial",
   "theorems": [
    "CUtil.Splitter.split_chunks_partial",
    "CUtil.Splitter.split_refuses",
    "CUtil.Splitter.split_overflow"
   ],
   "note": "Proved whenever total + max - 1 < 2^32, for all allocation outcomes. False of the code beyond: out of bounds store (witness split_overflow)."
  },
  {
   "property": "C14",
   "status": "proved",
   "theorems": [
    "CUtil.Splitter.split_arrays",
    "CUtil.Splitter.split_arrays_refuses"
   ],
   "note": "All arrays (of fewer than 2^32-1 buffers), all maxima, all allocation outcomes."
  },
  {
   "property": "C15",
   "status": "proved",
   "theorems": [
    "CUtil.ConstBufferArray.create_list",
    "CUtil.ConstBufferArray.create_empty_list",
    "CUtil.ConstBufferArray.create_with_move_list",
    "CUtil.ConstBufferArray.from_index_and_count_list",
    "CUtil.ConstBufferArray.from_array_array_list",
    "CUtil.ConstBufferArray.from_array_array_null",
    "CUtil.ConstBufferArray.add_list",
    "CUtil.ConstBufferArray.remove_front_list",
    "CUtil.ConstBufferArray.remove_back_list",
    "CUtil.ConstBufferArray.getters_list",
    "CUtil.ConstBufferArray.remove_empty_list",
    "CUtil.ConstBufferArray.create_destroy_balanced"
   ],
   "note": "All arrays, arguments and allocation outcomes; also that a successful call takes one reference per element and a failed one none."
  },
  {
   "property": "C16",
   "status": "partial",
   "theorems": [
    "CUtil.ConstBufferArray.from_offset_and_count_partial",
    "CUtil.ConstBufferArray.from_offset_and_count_success_partial",
    "CUtil.ConstBufferArray.from_offset_and_count_refuses",
    "CUtil.ConstBufferArray.from_offset_and_count_empty_array",
    "CUtil.ConstBufferArray.from_offset_and_count_zero"
   ],
   "note": "Proved for ranges of at least one buffer. False of the code for ranges of zero buffers: out of bounds read, or two leaked references (witnesses)."
  },
  {
   "property": "C17",
   "status": "proved",
   "theorems": [
    "CUtil.ConstBufferArray.all_buffers_size_exact",
    "CUtil.ConstBufferArray.contain_same_decides",
    "CUtil.ConstBufferArray.contain_same_equivalence"
   ],
   "note": ""
  },
  {
   "property": "C18",
   "status": "proved",
   "theorems": [
    "CUtil.ConstBufferLife.lifetime_safe",
    "CUtil.ConstBufferLife.owned_content",
    "CUtil.ConstBufferLife.content_immutable",
    "CUtil.ConstBufferLife.released_at_most_once",
    "CUtil.ConstBufferLife.released_only_when_unowned",
    "CUtil.ConstBufferLife.released_when_unowned",
    "CUtil.ConstBufferLife.no_leak",
    "CUtil.ConstBufferLife.finish_progress"
   ],
   "note": "All histories of create/window/inc/dec over any number of handles; each atomic operation one step."
  },
  {
   "property": "C19",
   "status": "proved",
   "theorems": [
    "CUtil.ConstBufferLife.window_result",
    "CUtil.ConstBufferLife.window_no_memory",
    "CUtil.ConstBufferLife.window_of_window",
    "CUtil.ConstBufferLife.window_copy_result"
   ],
   "note": ""
  },
  {
   "property": "C20",
   "status": "proved",
   "theorems": [
    "CUtil.Buffer.call_outcome",
    "CUtil.Buffer.history_outcome",
    "CUtil.Buffer.create_spec",
    "CUtil.Buffer.new_spec",
    "CUtil.Buffer.clone_spec",
    "CUtil.Buffer.readers_spec",
    "CUtil.Buffer.refusals",
    "CUtil.Buffer.self_source_ub"
   ],
   "note": "All call histories with all allocation outcomes; sources that are the caller's own memory. self_source_ub records that a source inside the buffer's own block is undefined."
  },
  {
   "property": "C21",
   "status": "proved",
   "theorems": [
    "CUtil.Strings.call_outcome",
    "CUtil.Strings.history_outcome",
    "CUtil.Strings.sprintf_failure",
    "CUtil.Strings.construct_spec",
    "CUtil.Strings.construct_n_spec",
    "CUtil.Strings.from_byte_array_spec",
    "CUtil.Strings.new_spec",
    "CUtil.Strings.new_with_memory_spec",
    "CUtil.Strings.new_quoted_spec",
    "CUtil.Strings.construct_sprintf_spec",
    "CUtil.Strings.length_spec",
    "CUtil.Strings.compare_spec",
    "CUtil.Strings.refusals",
    "CUtil.Strings.copy_self",
    "CUtil.Strings.concat_self_ub",
    "CUtil.Strings.own_text_ub"
   ],
   "note": "Text arguments that are not the string's own block; vsnprintf is an oracle. concat_self_ub and own_text_ub record that self-aliasing calls are undefined."
  },
  {
   "property": "C22",
   "status": "proved",
   "theorems": [
    "CUtil.Strings.new_JSON_spec",
    "CUtil.Strings.json_decodes"
   ],
   "note": ""
  },
  {
   "property": "C23",
   "status": "proved",
   "theorems": [
    "CUtil.Map.add_spec",
    "CUtil.Map.addOrUpdate_spec",
    "CUtil.Map.delete_spec",
    "CUtil.Map.call_outcome",
    "CUtil.Map.history_outcome",
    "CUtil.Map.create_spec",
    "CUtil.Map.destroy_outcome",
    "CUtil.Map.clone_spec",
    "CUtil.Map.independent",
    "CUtil.Map.contains_spec",
    "CUtil.Map.getValueFromKey_spec",
    "CUtil.Map.getInternals_spec",
    "CUtil.Map.null_refused",
    "CUtil.Map.null_refused_delete",
    "CUtil.Map.null_refused_queries",
    "CUtil.Map.create_fails_iff",
    "CUtil.Map.addOrUpdate_own_value_ub"
   ],
   "note": "every history with any allocation failures is a documented run over a list of pairs with distinct keys, no use after free, no double free, no leak, no foreign block touched; clones are independent. Finding: Map_AddOrUpdate with the pointer the map handed out for the same key reads freed memory."
  },
  {
   "property": "C24",
   "status": "partial",
   "theorems": [
    "CUtil.Map.filter_lost_by_delete",
    "CUtil.Map.filter_lost_by_failed_insert",
    "CUtil.Map.filter_lost_by_clone",
    "CUtil.Map.filter_enforced_partial",
    "CUtil.Map.filter_while_present",
    "CUtil.Map.clone_filter"
   ],
   "note": "false as stated: three ways to lose the filter are proved with witnesses; proved: the filter is kept and enforced while no deletion or failed insertion leaves the map empty"
  },
  {
   "property": "C25",
   "status": "proved",
   "theorems": [
    "CUtil.Map.toJSON_spec",
    "CUtil.Map.jsonObject_reads",
    "CUtil.Map.toJSON_ok"
   ],
   "note": "exact text, parsed back by an independent reader, and the only reasons to fail"
  },
  {
   "property": "C26",
   "status": "proved",
   "theorems": [
    "CUtil.SList.create_spec",
    "CUtil.SList.add_spec",
    "CUtil.SList.addHead_spec",
    "CUtil.SList.remove_spec",
    "CUtil.SList.find_spec",
    "CUtil.SList.foreach_spec",
    "CUtil.SList.removeIf_spec",
    "CUtil.SList.removeIfSpec_pure",
    "CUtil.SList.findSpec_pure",
    "CUtil.SList.foreachSpec_pure",
    "CUtil.SList.walk_spec",
    "CUtil.SList.destroy_spec",
    "CUtil.SList.refusals",
    "CUtil.SList.call_outcome",
    "CUtil.SList.history_outcome"
   ],
   "note": "all call histories, all allocation outcomes, stateful callbacks"
  },
  {
   "property": "C27",
   "status": "proved",
   "theorems": [
    "CUtil.DList.initialize_spec",
    "CUtil.DList.isListEmpty_spec",
    "CUtil.DList.removeEntryList_spec",
    "CUtil.DList.removeHeadList_spec",
    "CUtil.DList.removeTailList_spec",
    "CUtil.DList.removeTailList_empty",
    "CUtil.DList.insertTailList_spec",
    "CUtil.DList.insertHeadList_spec",
    "CUtil.DList.appendTailList_spec",
    "CUtil.DList.rep_frame",
    "CUtil.DList.call_outcome",
    "CUtil.DList.history_outcome"
   ],
   "note": "all histories over any number of lists, with the frame: other lists untouched"
  },
  {
   "property": "C28",
   "status": "proved",
   "theorems": [
    "CUtil.DList.forEach_spec",
    "CUtil.DList.visits_prefix",
    "CUtil.DList.visits_ok",
    "CUtil.DList.visits_complete",
    "CUtil.DList.visits_continue",
    "CUtil.DList.forEach_refusals",
    "CUtil.DList.removing_polite",
    "CUtil.DList.removing_all",
    "CUtil.DList.forEach_unset_ub"
   ],
   "note": "all stateful actions that keep the unvisited part of the list; in particular one that removes and frees its element"
  },
  {
   "property": "C29",
   "status": "proved",
   "theorems": [
    "CUtil.Sliding.create_spec",
    "CUtil.Sliding.average_spec",
    "CUtil.Sliding.inRange_of_nonneg",
    "CUtil.Sliding.refusals"
   ],
   "note": "all widths and histories of fewer than 2^31 additions without int64 overflow; the double division itself is not computed"
  },
  {
   "property": "C30",
   "status": "partial",
   "theorems": [
    "CUtil.Sliding.runs_partial",
    "CUtil.Sliding.slot_overflow",
    "CUtil.Sliding.difference_overflow"
   ],
   "note": "False of the code: the slot counter overflows at the 2^31st addition, and the difference with the value pushed out can overflow although all windowed sums fit (witnesses). Proved for shorter histories in range."
  },
  {
   "property": "C31",
   "status": "proved",
   "theorems": [
    "CUtil.AsyncOp.refused_iff",
    "CUtil.AsyncOp.layout",
    "CUtil.AsyncOp.create_fails"
   ],
   "note": "all sizes, alignments and block addresses (64 bit target, block not within 4 GB of the end of the address space)"
  },
  {
   "property": "C32",
   "status": "proved",
   "theorems": [
    "CUtil.AsyncOp.cancel_at_most_once",
    "CUtil.AsyncOp.cancel_exactly_once",
    "CUtil.AsyncOp.cancel_result",
    "CUtil.AsyncOp.cancel_progress"
   ],
   "note": "any number of calls in any interleaving of their atomic steps"
  },
  {
   "property": "C33",
   "status": "proved",
   "theorems": [
    "CUtil.Tracker.create_spec",
    "CUtil.Tracker.call_outcome",
    "CUtil.Tracker.history_outcome",
    "CUtil.Tracker.no_duplicates",
    "CUtil.Tracker.refusals",
    "CUtil.Tracker.register_bad_argument_result",
    "CUtil.Tracker.destroy_leaks"
   ],
   "note": "all histories, all failures of allocations and callbacks; no leak and lock always released. Findings: MU_FAILURE answered for bad arguments; destroying a tracker with registrations leaks."
  },
  {
   "property": "C34",
   "status": "proved",
   "theorems": [
    "CUtil.Tracker.destroy_all",
    "CUtil.Tracker.history_outcome"
   ],
   "note": "for every reachable tracker"
  },
  {
   "property": "C35",
   "status": "proved",
   "theorems": [
    "CUtil.RcString.lifetime_safe",
    "CUtil.RcString.owned_content",
    "CUtil.RcString.owned_pointer",
    "CUtil.RcString.owned_made",
    "CUtil.RcString.not_released_while_owned",
    "CUtil.RcString.released_at_most_once",
    "CUtil.RcString.released_when_unowned",
    "CUtil.RcString.only_duties",
    "CUtil.RcString.no_leak",
    "CUtil.RcString.finish_step",
    "CUtil.RcString.create_spec",
    "CUtil.RcString.refusals",
    "CUtil.RcString.vformat_overflow_ub"
   ],
   "note": "All histories of creations (all five constructors, RC_PTR included), reference changes and releases. Finding: vformat of exactly INT_MAX characters overflows an int before the test."
  },
  {
   "property": "C36",
   "status": "partial",
   "theorems": [
    "CUtil.RcSplit.split_partial",
    "CUtil.RcSplit.owns_of_reachable",
    "CUtil.RcSplit.isSplit_unique",
    "CUtil.RcSplit.split_null",
    "CUtil.RcSplit.split_wraps_ub",
    "CUtil.RcSplit.split_wraps_wrong"
   ],
   "note": "Proved for strings with fewer than 2^32 - 1 delimiters, all allocation outcomes. False of the code beyond: the piece count is a uint32_t (witnesses)."
  },
  {
   "property": "C37",
   "status": "proved",
   "theorems": [
    "CUtil.CritSec.mutual_exclusion",
    "CUtil.CritSec.no_lost_wakeup",
    "CUtil.CritSec.try_outcome",
    "CUtil.CritSec.progress"
   ],
   "note": "any number of threads, every interleaving, spurious wake-ups included"
  },
  {
   "property": "C38",
   "status": "partial",
   "theorems": [
    "CUtil.TpWorker.no_overlap",
    "CUtil.TpWorker.request_kept_partial",
    "CUtil.TpWorker.due_stays",
    "CUtil.TpWorker.due_progress",
    "CUtil.TpWorker.no_lost_wakeup",
    "CUtil.TpWorker.idle_quiet",
    "CUtil.TpWorker.schedule_failure_loses_all",
    "CUtil.TpWorker.dead_forever",
    "CUtil.TpWorker.schedule_can_block"
   ],
   "note": "Proved while threadpool_schedule_work_item succeeds; false of the code when it fails (its result is ignored: witness, and the object is dead from then on). Finding: schedule_process can block as long as a run."
  },
  {
   "property": "C39",
   "status": "proved",
   "theorems": [
    "CUtil.WorkerThread.one_thread",
    "CUtil.WorkerThread.no_overlap",
    "CUtil.WorkerThread.request_kept",
    "CUtil.WorkerThread.due_stays",
    "CUtil.WorkerThread.due_progress",
    "CUtil.WorkerThread.no_lost_wakeup",
    "CUtil.WorkerThread.never_finds_close",
    "CUtil.WorkerThread.closed_quiet",
    "CUtil.WorkerThread.close_drops_request"
   ],
   "note": "any number of threads and of openings, every interleaving. A close drops accepted requests (witness), which the property allows."
  },
  {
   "property": "C40",
   "status": "proved",
   "theorems": [
    "CUtil.CancelToken.cancel_at_most_once",
    "CUtil.CancelToken.cancel_fails_only_if_canceled",
    "CUtil.CancelToken.cancel_success_counted",
    "CUtil.CancelToken.canceled_iff",
    "CUtil.CancelToken.canceled_stays",
    "CUtil.CancelToken.is_canceled_answers",
    "CUtil.CancelToken.is_canceled_true_after",
    "CUtil.CancelToken.is_canceled_false_before",
    "CUtil.CancelToken.cancel_calls_registered",
    "CUtil.CancelToken.before_is_registered",
    "CUtil.CancelToken.returned_is_registered",
    "CUtil.CancelToken.called_at_most_once",
    "CUtil.CancelToken.called_only_if_canceled",
    "CUtil.CancelToken.not_called_after_drop",
    "CUtil.CancelToken.drop_waits"
   ],
   "note": "Every interleaving of any number of threads calling cancel, is_canceled, register_notify and dropping registrations; a registration dropped before the dispatch reaches it is excepted."
  },
  {
   "property": "C41",
   "status": "partial",
   "theorems": [
    "CUtil.CancelToken.notified_or_late_partial",
    "CUtil.CancelToken.register_after_cancel",
    "CUtil.CancelToken.registered_before_dispatch_called",
    "CUtil.CancelToken.lost_forever",
    "CUtil.CancelToken.notification_lost"
   ],
   "note": "False as stated: notification_lost is an execution in which a registration is returned for a cancelled token and its callback is never called. Proved instead: only a target inserted after the dispatch got the lock can be lost."
  },
  {
   "property": "C42",
   "status": "proved",
   "theorems": [
    "CUtil.Dispatcher.no_bad",
    "CUtil.Dispatcher.dispatch_calls",
    "CUtil.Dispatcher.registered_nodup",
    "CUtil.Dispatcher.dispatch_start",
    "CUtil.Dispatcher.register_effective",
    "CUtil.Dispatcher.unregister_removes",
    "CUtil.Dispatcher.no_call_after_unregister",
    "CUtil.Dispatcher.frozen_while_dispatching",
    "CUtil.Dispatcher.freeTargets_spec",
    "CUtil.Dispatcher.free_leaves_nothing",
    "CUtil.Dispatcher.never_stuck",
    "CUtil.Dispatcher.dispatch_returns",
    "CUtil.Dispatcher.change_returns",
    "CUtil.Dispatcher.no_deadlock",
    "CUtil.Dispatcher.calls_return"
   ],
   "note": "Transition system over the list link by link (the DList model) with any number of concurrent calls; the reader/writer lock is assumed."
  },
  {
   "property": "C43",
   "status": "proved",
   "theorems": [
    "CUtil.Channel.queue_one_kind",
    "CUtil.Channel.fifo",
    "CUtil.Channel.delivered_once",
    "CUtil.Channel.delivered_matched",
    "CUtil.Channel.data_once",
    "CUtil.Channel.cancel_after_match_delivers_cancelled"
   ],
   "note": "Every interleaving of any number of threads pushing, pulling, cancelling, opening and closing, with no assumption on the callers or the threadpool. Requests cancelled, abandoned or lost while waiting are excepted. A cancel after the match makes the result CANCELLED although the data is passed (witness)."
  },
  {
   "property": "C44",
   "status": "partial",
   "theorems": [
    "CUtil.Channel.once_partial",
    "CUtil.Channel.safe_partial",
    "CUtil.Channel.accounted_partial",
    "CUtil.Channel.closed_nothing_pending_partial",
    "CUtil.Channel.about_to_call_progress",
    "CUtil.Channel.lost_forever",
    "CUtil.Channel.schedule_failure_loses",
    "CUtil.Channel.schedule_failure_in_cancel_loses",
    "CUtil.Channel.cancel_after_completion_is_undefined",
    "CUtil.Channel.cancel_races_with_close",
    "CUtil.Channel.cancel_follows_dangling_link"
   ],
   "note": "False of the code in general (witnesses: a cancel that races with a close calls a callback twice; a cancel after completion dereferences NULL; a threadpool failure loses a request for ever and close never returns). Proved for cancels of waiting operations that nothing else takes meanwhile, and a threadpool that accepts all work."
  },
  {
   "property": "C45",
   "status": "proved",
   "theorems": [
    "CUtil.Watchdog.quiet_after_stop",
    "CUtil.Watchdog.no_use_after_free",
    "CUtil.Watchdog.at_most_once_per_start",
    "CUtil.Watchdog.calls_le_starts",
    "CUtil.Watchdog.timeout_kept",
    "CUtil.Watchdog.reset_rearms",
    "CUtil.Watchdog.restart_original_timeout",
    "CUtil.Watchdog.never_dead",
    "CUtil.Watchdog.open_between_calls",
    "CUtil.Watchdog.waits_for_callback",
    "CUtil.Watchdog.use_after_free_without_wait",
    "CUtil.Watchdog.restart_failure_is_silent",
    "CUtil.Watchdog.start_spec"
   ],
   "note": "Assumes that cancelling or disposing of the timer (c_pal, not in the repository) waits for executions already started; use_after_free_without_wait shows what happens otherwise. At most once per start or reset is for calls of reset and stop that do not overlap each other."
  },
  {
   "property": "C46",
   "status": "partial",
   "theorems": [
    "CUtil.OnceInit.Pool.body_exclusive",
    "CUtil.OnceInit.Pool.init_refused",
    "CUtil.OnceInit.Pool.initialised_iff_pool",
    "CUtil.OnceInit.Pool.no_leak",
    "CUtil.OnceInit.Pool.get_partial",
    "CUtil.OnceInit.Pool.get_race",
    "CUtil.OnceInit.Notif.init_partial",
    "CUtil.OnceInit.Notif.no_leak_partial",
    "CUtil.OnceInit.Notif.second_init_partial",
    "CUtil.OnceInit.Notif.two_inits"
   ],
   "note": "The exclusion is proved for watchdog_threadpool under every interleaving; it is false for thread_notifications_dispatcher (two_inits), where it is proved for calls made one at a time. get may return a disposed pool when it overlaps deinit (get_race); proved when it does not."
  },
  {
   "property": "C47",
   "status": "proved",
   "theorems": [
    "CUtil.TArray.create_spec",
    "CUtil.TArray.ensure_spec",
    "CUtil.TArray.leastDoubling_unique",
    "CUtil.TArray.ensure_null",
    "CUtil.TArray.ensure_grants",
    "CUtil.TArray.free_spec",
    "CUtil.TArray.call_defined",
    "CUtil.TArray.history_outcome"
   ],
   "note": "all capacities, element sizes, allocation outcomes and histories of writes and growth"
  },
  {
   "property": "C48",
   "status": "proved",
   "theorems": [
    "CUtil.TwoD.create_spec",
    "CUtil.TwoD.call_outcome",
    "CUtil.TwoD.history_outcome",
    "CUtil.TwoD.dispose_spec",
    "CUtil.TwoD.refusals"
   ],
   "note": "all histories and allocation outcomes; other blocks untouched"
  },
  {
   "property": "C49",
   "status": "proved",
   "theorems": [
    "CUtil.Paged.create_spec",
    "CUtil.Paged.call_outcome",
    "CUtil.Paged.history_outcome",
    "CUtil.Paged.allocate_ok",
    "CUtil.Paged.get_iff",
    "CUtil.Paged.storage_distinct",
    "CUtil.Paged.page_iff",
    "CUtil.Paged.dispose_spec",
    "CUtil.Paged.release_call",
    "CUtil.Paged.refusals"
   ],
   "note": "byte-level bitmap; all histories and allocation outcomes, for every page size that fits size_t"
  },
  {
   "property": "C50",
   "status": "partial",
   "theorems": [
    "CUtil.Paged.page_size_partial",
    "CUtil.Paged.page_size_iff",
    "CUtil.Paged.page_size_overflow",
    "CUtil.Paged.allocate_wraps_ub"
   ],
   "note": "False of the code: the size computation wraps; concrete witness and exact criterion. Proved for page sizes that fit."
  },
  {
   "property": "C51",
   "status": "proved",
   "theorems": [
    "CUtil.Flags.flags_to_string_spec",
    "CUtil.Flags.names_unique",
    "CUtil.Flags.rest_unique",
    "CUtil.Flags.zero_flag_listed",
    "CUtil.Flags.sample_good"
   ],
   "note": "all flag lists, all 32-bit values, all allocation outcomes"
  },
  {
   "property": "C52",
   "status": "proved",
   "theorems": [
    "CUtil.SyncWrapper.callback_spec",
    "CUtil.SyncWrapper.wrapper_spec",
    "CUtil.SyncWrapper.refused_untouched"
   ],
   "note": "all numbers of out arguments and all failure patterns. After a copy failure the caller's out variables hold freed values (documented in DESIGN.md)."
  },
  {
   "property": "C53",
   "status": "proved",
   "theorems": [
    "CUtil.Retry.called_exactly_once",
    "CUtil.Retry.progress",
    "CUtil.Retry.freed_exactly_once",
    "CUtil.Retry.kept_until_end",
    "CUtil.Retry.delays_spec",
    "CUtil.Retry.told",
    "CUtil.Retry.timeout_drops_values",
    "CUtil.Retry.comes_to_end",
    "CUtil.Retry.sleeps_bounded",
    "CUtil.Retry.retries_without_delay"
   ],
   "note": "every interleaving of caller, callbacks and work items, every answer of the asynchronous function and of the threadpool; time is rational. Finding: on an asynchronous timeout the received out arguments are replaced by the error values."
  },
  {
   "property": "C54",
   "status": "partial",
   "theorems": [
    "CUtil.Filename.append_suffix_partial",
    "CUtil.Filename.means_unique",
    "CUtil.Filename.append_suffix_null",
    "CUtil.Filename.huge_name_cut",
    "CUtil.Filename.huge_name_wrong"
   ],
   "note": "proved for names shorter than 4 GiB and the backslash as only folder separator (what the documentation says); false of the code for longer names (witness)"
  },
  {
   "property": "C55",
   "status": "partial",
   "theorems": [
    "CUtil.External.execute_lines",
    "CUtil.External.execute_sound_partial",
    "CUtil.External.execute_outcome",
    "CUtil.External.carriage_return_cuts",
    "CUtil.External.crlf_extra_line",
    "CUtil.External.pipe_leak",
    "CUtil.External.unterminated_fails"
   ],
   "note": "false of the code for lines with a carriage return (witnesses); proved for outputs without one. The pipe is not closed on a read error."
  },
  {
   "property": "C56",
   "status": "proved",
   "theorems": [
    "CUtil.Folder.for_each_in_folder_spec",
    "CUtil.Folder.for_each_in_folder_empty",
    "CUtil.Folder.visited_log",
    "CUtil.Folder.visited_prefix",
    "CUtil.Folder.for_each_in_sub_folder_spec",
    "CUtil.Folder.for_each_balanced",
    "CUtil.Folder.for_each_sub_balanced"
   ],
   "note": "all folder contents, all failures, stateful callbacks"
  },
  {
   "property": "C57",
   "status": "proved",
   "theorems": [
    "CUtil.AsyncType.array_copy_spec",
    "CUtil.AsyncType.array_free_spec",
    "CUtil.AsyncType.array_copy_free",
    "CUtil.AsyncType.array_copy_fail",
    "CUtil.AsyncType.array_free_null",
    "CUtil.AsyncType.charptr_copy_spec",
    "CUtil.AsyncType.charptr_copy_free",
    "CUtil.AsyncType.ref_copy_spec",
    "CUtil.AsyncType.value_copy_spec",
    "CUtil.AsyncType.tuple_create_spec",
    "CUtil.AsyncType.tuple_destroy_spec",
    "CUtil.AsyncType.tuple_destroy_null",
    "CUtil.RcSplit.array_destroy_spec"
   ],
   "note": "all sizes and all failure points"
  },
  {
   "property": "C58",
   "status": "partial",
   "theorems": [
    "CUtil.Uuid.from_string_accepts",
    "CUtil.Uuid.from_string_inside_partial",
    "CUtil.Uuid.from_string_ub_iff",
    "CUtil.Uuid.from_string_unterminated_overread"
   ],
   "note": "False of the code: the error message prints the input with %s, so malformed unterminated input is over-read (witness); exact criterion given. Well formed unterminated input is parsed correctly."
  },
  {
   "property": "C59",
   "status": "proved",
   "theorems": [
    "CUtil.Writable.use_defined",
    "CUtil.Writable.read_back",
    "CUtil.Writable.size_reported",
    "CUtil.Writable.create_fails",
    "CUtil.Writable.seal_same",
    "CUtil.Writable.seal_copies",
    "CUtil.Writable.sealed_immutable",
    "CUtil.Writable.freed_exactly",
    "CUtil.Writable.ended_use_undefined",
    "CUtil.Writable.sealed_can_change"
   ],
   "note": "Both flavours, all histories of any number of handles. In constbuffer.c a sealed buffer may still change while somebody keeps a writable handle (witness sealed_can_change); the THANDLE flavour copies."
  },
  {
   "property": "C60",
   "status": "partial",
   "theorems": [
    "CUtil.Writable.from_buffer_bytes_partial",
    "CUtil.Writable.from_buffer_truncates"
   ],
   "note": "False for BUFFERs of 4 GiB and more, which are cut to their length modulo 2^32 without a failure (from_buffer_truncates)."
  },
  {
   "property": "C61",
   "status": "proved",
   "theorems": [
    "CUtil.Channel.cancelled_only_if_asked",
    "CUtil.Channel.abandoned_only_if_closed",
    "CUtil.Channel.undisturbed_delivers",
    "CUtil.Channel.every_execution"
   ],
   "note": "Every interleaving, with no assumption on the callers or the threadpool."
  },
  {
   "property": "C62",
   "status": "proved",
   "theorems": [
    "CUtil.Retry.timeout_only_if_due",
    "CUtil.Retry.failure_only_for_its_reason",
    "CUtil.Retry.error_only_for_its_reason",
    "CUtil.Retry.one_delay_per_refusal",
    "CUtil.Retry.every_execution"
   ],
   "note": "Every execution of one call of the wrapper, for every asynchronous function whose expected result is not one of those to retry."
  },
  {
   "property": "C63",
   "status": "proved",
   "theorems": [
    "CUtil.TpWorkerLife.safe",
    "CUtil.TpWorkerLife.released_once",
    "CUtil.TpWorkerLife.held_iff_open",
    "CUtil.TpWorkerLife.closed_quiet",
    "CUtil.TpWorkerLife.open_starts_anew",
    "CUtil.TpWorkerLife.destroy_leaves_nothing",
    "CUtil.TpWorkerLife.create_spec",
    "CUtil.TpWorkerLife.never_stuck",
    "CUtil.TpWorkerLife.open_returns",
    "CUtil.TpWorkerLife.close_returns",
    "CUtil.TpWorkerLife.destroy_returns"
   ],
   "note": "Assumes that letting go of a work item waits for its work (c_pal) and that destroy is called when no other call is in progress."
  },
  {
   "property": "C64",
   "status": "partial",
   "theorems": [
    "CUtil.ChannelHeap.close_takes_all",
    "CUtil.ChannelHeap.cancel_waiting",
    "CUtil.ChannelHeap.cancel_taken_partial",
    "CUtil.ChannelHeap.cancel_after_match_undefined"
   ],
   "note": "On the heap of intrusive lists. cancel_taken_partial needs the memory of the next operation, which may be released: then the cancel is undefined (cancel_after_match_undefined)."
  },
  {
   "property": "C65",
   "status": "proved",
   "theorems": [
    "CUtil.Hash.succeeds",
    "CUtil.Hash.fails",
    "CUtil.Hash.undefined_iff",
    "CUtil.Hash.same_bytes_same_hash"
   ],
   "note": "For any MurmurHash2 that reads the given number of bytes (its source is not in /repo)."
  },
  {
   "property": "C66",
   "status": "proved",
   "theorems": [
    "CUtil.BufferHeap.call_fine",
    "CUtil.BufferHeap.exact_always",
    "CUtil.BufferHeap.always_defined",
    "CUtil.BufferHeap.nothing_left",
    "CUtil.BufferHeap.others_stay",
    "CUtil.BufferHeap.readers_fine",
    "CUtil.BufferHeap.own_source_undefined"
   ],
   "note": "A heap model of buffer.c with every malloc, realloc and free, proved to refine the value model of C20. Needs that a source is not the storage of the changed buffer itself (own_source_undefined)."
  },
  {
   "property": "C67",
   "status": "proved",
   "theorems": [
    "CUtil.StringHeap.call_fine",
    "CUtil.StringHeap.exact_always",
    "CUtil.StringHeap.always_defined",
    "CUtil.StringHeap.nothing_left",
    "CUtil.StringHeap.others_stay",
    "CUtil.StringHeap.readers_fine",
    "CUtil.StringHeap.own_source_undefined",
    "CUtil.StringHeap.with_itself_undefined",
    "CUtil.StringHeap.given_twice_undefined"
   ],
   "note": "A heap model of strings.c with every malloc, realloc and free, proved to refine the value model of C21. Needs that a source is not in the changed string itself (own_source_undefined), except the whole string for STRING_copy, and that the arguments of a format are not."
  },
  {
   "property": "C68",
   "status": "proved",
   "theorems": [
    "CUtil.WorkerThread.open_returns",
    "CUtil.WorkerThread.schedule_returns",
    "CUtil.WorkerThread.request_served",
    "CUtil.WorkerThread.close_returns",
    "CUtil.WorkerThread.fair_run_exists"
   ],
   "note": "Leads-to theorems over infinite executions under weak fairness per thread (Verif/Live.lean). A sleeping thread is never assumed to wake by itself. fair_run_exists: every finite execution that comes to rest is part of a fair one."
  },
  {
   "property": "C69",
   "status": "proved",
   "theorems": [
    "CUtil.TpWorker.request_served",
    "CUtil.TpWorker.sleeper_woken",
    "CUtil.TpWorker.call_may_never_return",
    "CUtil.TpWorker.fair_run_exists"
   ],
   "note": "As C68. Needs that threadpool_schedule_work_item never fails: C38 shows what is lost otherwise. call_may_never_return is an infinite periodic fair execution in which one call of schedule never returns, although every request is served."
  },
  {
   "property": "C70",
   "status": "proved",
   "theorems": [
    "CUtil.CritSec.somebody_enters",
    "CUtil.CritSec.leave_returns",
    "CUtil.CritSec.starvation_possible"
   ],
   "note": "As C68. starvation_possible is an infinite periodic fair execution in which thread 1 never enters."
  },
  {
   "property": "C71",
   "status": "proved",
   "theorems": [
    "CUtil.Watchdog.reset_returns",
    "CUtil.Watchdog.stop_returns",
    "CUtil.Watchdog.fires",
    "CUtil.Watchdog.fair_run_exists"
   ],
   "note": "As C68, for calls that do not overlap and a timer whose cancellation waits for running callbacks. The callback is assumed to return, so it must not call reset or stop itself."
  },
  {
   "property": "C72",
   "status": "proved",
   "theorems": [
    "CUtil.Channel.callback_called",
    "CUtil.Channel.close_returns",
    "CUtil.Channel.call_returns",
    "CUtil.Channel.all_called_after_close",
    "CUtil.Channel.fair_run_exists"
   ],
   "note": "As C68, on the transition system of C43, for careful callers and a threadpool that accepts all work: the theorems of C44 show what happens otherwise (lost_forever: a close that never ends)."
  },
  {
   "property": "C73",
   "status": "proved",
   "theorems": [
    "CUtil.SyncWait.returns_as_sequential",
    "CUtil.SyncWait.refused_never_called",
    "CUtil.SyncWait.context_safe",
    "CUtil.SyncWait.wake_after_return",
    "CUtil.SyncWait.late_callback",
    "CUtil.SyncWait.returns",
    "CUtil.SyncWait.fair_run_exists"
   ],
   "note": "returns_as_sequential reduces every interleaving to SyncWrapper.wrapper, whose meaning is C52. If the wait fails the callback writes to a dead stack frame (late_callback)."
  },
  {
   "property": "C74",
   "status": "proved",
   "theorems": [
    "CUtil.Lackey.in_force",
    "CUtil.Lackey.init_once",
    "CUtil.Lackey.dll_main_spec",
    "CUtil.Lackey.notified",
    "CUtil.Lackey.at_most_once",
    "CUtil.Lackey.calm_safe",
    "CUtil.Lackey.callback_set",
    "CUtil.Lackey.deinit_races",
    "CUtil.Lackey.dispatch_after_deinit"
   ],
   "note": "init and deinit by one thread (several: C46). deinit_races: a notification that overlaps deinit uses a disposed dispatcher."
  },
  {
   "property": "C75",
   "status": "proved",
   "theorems": [
    "CUtil.LeakCheck.examine_spec",
    "CUtil.LeakCheck.check_folder",
    "CUtil.LeakCheck.check_folder_none",
    "CUtil.LeakCheck.unreadable_passes"
   ],
   "note": "The file system is an oracle; the folder's name is not changed by the conversion from wide characters."
  },
  {
   "property": "C76",
   "status": "proved",
   "theorems": [
    "CUtil.TrackerHeap.call_refines",
    "CUtil.TrackerHeap.history",
    "CUtil.TrackerHeap.no_leak"
   ],
   "note": "The loops over the lists carry a fuel; more than the number of structures is enough, and 2 * calls + 1 always is."
  },
  {
   "property": "C77",
   "status": "proved",
   "theorems": [
    "CUtil.ArrayLife.lifetime_safe",
    "CUtil.ArrayLife.held_alive",
    "CUtil.ArrayLife.held_readable",
    "CUtil.ArrayLife.contents_fixed",
    "CUtil.ArrayLife.created_contents",
    "CUtil.ArrayLife.empty_buffers",
    "CUtil.ArrayLife.building_alive",
    "CUtil.ArrayLife.freed_once",
    "CUtil.ArrayLife.no_leak",
    "CUtil.ArrayLife.release_progress",
    "CUtil.ArrayLife.releases_end"
   ],
   "note": "Counts do not overflow; each increment and each decrement is a step of its own. Calls refused for their arguments are in C15 and C16."
  },
  {
   "property": "C78",
   "status": "proved",
   "theorems": [
    "CUtil.CancelToken.call_returns",
    "CUtil.CancelToken.dispatch_ends",
    "CUtil.CancelToken.cancel_notifies",
    "CUtil.CancelToken.register_notifies",
    "CUtil.CancelToken.silent_after_drop",
    "CUtil.CancelToken.fair_run_exists"
   ],
   "note": "Callbacks return, and do not register or drop registrations themselves (that deadlocks, C42). A thread that waits for the lock is not taken to come out of it by a failing allocation."
  },
  {
   "property": "C79",
   "status": "partial",
   "theorems": [
    "CUtil.SampleRetry.memory_safe",
    "CUtil.SampleRetry.callback_once",
    "CUtil.SampleRetry.failed_silent",
    "CUtil.SampleRetry.succeeded_called",
    "CUtil.SampleRetry.result_truthful",
    "CUtil.SampleRetry.cancel_reaches",
    "CUtil.SampleRetry.told_or_will",
    "CUtil.SampleRetry.no_retry_after_cancel",
    "CUtil.SampleRetry.freed_unless_refused_partial",
    "CUtil.SampleRetry.refused_retry_leaks",
    "CUtil.SampleRetry.callback_after_close",
    "CUtil.SampleRetry.comes_to_end",
    "CUtil.SampleRetry.canceled_comes_to_end",
    "CUtil.SampleRetry.cancel_stops_retries",
    "CUtil.SampleRetry.callback_comes",
    "CUtil.SampleRetry.retries_unbounded"
   ],
   "note": "Partial because that everything is freed is false of the sample when the lower layer refuses a retry (exact criterion and witness). The lower layer is any module with the interface; argument validation is not modelled."
  },
  {
   "property": "C80",
   "status": "partial",
   "theorems": [
    "CUtil.SampleChain.memory_safe",
    "CUtil.SampleChain.callback_once",
    "CUtil.SampleChain.failed_silent",
    "CUtil.SampleChain.succeeded_called",
    "CUtil.SampleChain.result_truthful_partial",
    "CUtil.SampleChain.cancel_reaches_partial",
    "CUtil.SampleChain.told_or_will",
    "CUtil.SampleChain.no_step_after_cancel",
    "CUtil.SampleChain.lost_forever",
    "CUtil.SampleChain.always_stored",
    "CUtil.SampleChain.everything_freed",
    "CUtil.SampleChain.cancel_lost",
    "CUtil.SampleChain.error_of_step_1_ignored",
    "CUtil.SampleChain.comes_to_end",
    "CUtil.SampleChain.callback_comes"
   ],
   "note": "Partial because that a cancel reaches every running operation, and that an error of step 1 is reported, are false of the sample (witnesses cancel_lost with lost_forever, error_of_step_1_ignored). The lower layer is any module with the interface; argument validation is not modelled."
  },
  {
   "property": "C81",
   "status": "partial",
   "theorems": [
    "CUtil.SampleLl.operation_safe",
    "CUtil.SampleLl.callback_once",
    "CUtil.SampleLl.failed_silent",
    "CUtil.SampleLl.succeeded_called",
    "CUtil.SampleLl.result_truthful",
    "CUtil.SampleLl.fake_cancel_prompt",
    "CUtil.SampleLl.real_cancel_wakes",
    "CUtil.SampleLl.module_safe_partial",
    "CUtil.SampleLl.everything_freed",
    "CUtil.SampleLl.module_used_after_destroy",
    "CUtil.SampleLl.comes_to_end",
    "CUtil.SampleLl.callback_comes"
   ],
   "note": "Partial because that the module is never used after its destruction is false of both samples unless the owner waits for the callback (witness). The close is taken to wait for the end of all calls (sm) and not for running work of the pool (c_pal, whose code is not in the repository); should releasing the pool wait for it, the witness remains for work that runs in the caller's own thread. The settings for tests are not modelled: the result of the work is any."
  },
  {
   "property": "C82",
   "status": "partial",
   "theorems": [
    "CUtil.SampleCancelAll.operations_safe",
    "CUtil.SampleCancelAll.callback_once",
    "CUtil.SampleCancelAll.failed_silent",
    "CUtil.SampleCancelAll.succeeded_called",
    "CUtil.SampleCancelAll.close_cancels",
    "CUtil.SampleCancelAll.late_call_cancels",
    "CUtil.SampleCancelAll.close_canceled_all",
    "CUtil.SampleCancelAll.closed_done",
    "CUtil.SampleCancelAll.everything_freed",
    "CUtil.SampleCancelAll.retained_only_late",
    "CUtil.SampleCancelAll.retained_until_close",
    "CUtil.SampleCancelAll.completed_and_retained",
    "CUtil.SampleCancelAll.module_safe_partial",
    "CUtil.SampleCancelAll.module_used_after_destroy",
    "CUtil.SampleCancelAll.callback_after_close",
    "CUtil.SampleCancelAll.canceled_only_if_closed",
    "CUtil.SampleCancelAll.never_stuck",
    "CUtil.SampleCancelAll.holder_runs",
    "CUtil.SampleCancelAll.comes_to_end",
    "CUtil.SampleCancelAll.close_returns",
    "CUtil.SampleCancelAll.callback_comes"
   ],
   "note": "Partial because that the module is never used after its destruction is false of the sample unless the owner waits for execute_async to return (witness). The contracts of the state manager and of the lower layer are assumptions, stated in the head of Verif/SampleCancelAll/Model.lean."
  },
  {
   "property": "C83",
   "status": "proved",
   "theorems": [
    "CUtil.SampleStack.operations_safe",
    "CUtil.SampleStack.modules_safe",
    "CUtil.SampleStack.callback_once",
    "CUtil.SampleStack.failed_silent",
    "CUtil.SampleStack.succeeded_called",
    "CUtil.SampleStack.callback_may_close",
    "CUtil.SampleStack.cancel_reaches",
    "CUtil.SampleStack.everything_freed",
    "CUtil.SampleStack.terminates",
    "CUtil.SampleStack.progress",
    "CUtil.SampleStack.comes_to_end"
   ],
   "note": "The contracts of layer 0 and of the state manager, and that the client does not release its handle while it cancels, are assumptions, stated in the head of Verif/SampleStack/Model.lean."
  },
  {
   "property": "C84",
   "status": "proved",
   "theorems": [
    "CUtil.SerialArena.array_holds",
    "CUtil.SerialArena.placed_at",
    "CUtil.SerialArena.refused_only_if",
    "CUtil.SerialArena.too_big_refused",
    "CUtil.SerialArena.read_back",
    "CUtil.SerialArena.growth"
   ],
   "note": "realloc refuses 2^63 bytes and more (stated in the head of Verif/SerialArena/Model.lean)."
  },
  {
   "property": "C85",
   "status": "proved",
   "theorems": [
    "CUtil.AsyncOp.cancel_never_blocked",
    "CUtil.AsyncOp.cancel_wait_free",
    "CUtil.OnceInit.Pool.never_blocked",
    "CUtil.OnceInit.Pool.wait_free",
    "CUtil.OnceInit.Notif.never_blocked",
    "CUtil.OnceInit.Notif.wait_free",
    "CUtil.Lackey.notification_never_blocked",
    "CUtil.Lackey.notification_wait_free",
    "CUtil.Lackey.init_never_blocked",
    "CUtil.Lackey.init_wait_free"
   ],
   "note": "The cancel function of the user, creating the threadpool and the targets of the dispatcher count as one step (two for a dispatch); what they do is theirs."
  },
  {
   "property": "C86",
   "status": "partial",
   "theorems": [
    "CUtil.LeakFolder.create_spec",
    "CUtil.LeakFolder.create_memory",
    "CUtil.LeakFolder.destroy_memory",
    "CUtil.LeakFolder.same_folder_partial",
    "CUtil.LeakFolder.silent",
    "CUtil.LeakFolder.other_folder_removed"
   ],
   "note": "False of the code for names with a space or another separator: the names are not quoted in the commands, and destroy removes the folder named by the part before the space (witness other_folder_removed). Proved for all names without separators; the memory for all names."
  },
  {
   "property": "C87",
   "status": "proved",
   "theorems": [
    "CUtil.TestHelpers.guid_from_string_iff",
    "CUtil.TestHelpers.guid_from_string_fails",
    "CUtil.TestHelpers.guid_as_string_spec"
   ],
   "note": "uuid_produce and GUID_from_uuid (c_pal) are given by what they return."
  },
  {
   "property": "C88",
   "status": "proved",
   "theorems": [
    "CUtil.TestHelpers.compare_order",
    "CUtil.TestHelpers.less_order",
    "CUtil.TestHelpers.mock_agrees",
    "CUtil.TestHelpers.mock_refuses",
    "CUtil.TestHelpers.copy_free",
    "CUtil.TestHelpers.null_text_disagrees",
    "CUtil.TestHelpers.null_text_order"
   ],
   "note": "umocktypes_are_equal_const_charptr (umock_c) is taken by its contract. Note: for an object whose text pointer is NULL, which no rc_string function makes, assert and mock disagree (null_text_disagrees)."
  },
  {
   "property": "C89",
   "status": "proved",
   "theorems": [
    "CUtil.SlidingConc.body_eq",
    "CUtil.SlidingConc.get_average",
    "CUtil.SlidingConc.add_counted",
    "CUtil.SlidingConc.only_calls",
    "CUtil.SlidingConc.race_free",
    "CUtil.SlidingConc.undefined_only",
    "CUtil.SlidingConc.quiet_average",
    "CUtil.SlidingConc.hist_grows",
    "CUtil.SlidingConc.never_stuck"
   ],
   "note": "Statement-level interleavings of the body that C29 proves correct sequentially (body_eq ties the two models); the lock is a reader/writer lock with the contract of srw_lock."
  },
  {
   "property": "C90",
   "status": "proved",
   "theorems": [
    "CUtil.TrackerConc.race_free",
    "CUtil.TrackerConc.action_on_live",
    "CUtil.TrackerConc.action_excludes_destroy",
    "CUtil.TrackerConc.one_destroy",
    "CUtil.TrackerConc.once",
    "CUtil.TrackerConc.destroy_order",
    "CUtil.TrackerConc.destroyed_all",
    "CUtil.TrackerConc.register_result",
    "CUtil.TrackerConc.unregister_result",
    "CUtil.TrackerConc.act_result",
    "CUtil.TrackerConc.no_duplicates",
    "CUtil.TrackerConc.past_stays",
    "CUtil.TrackerConc.reentrant_hangs",
    "CUtil.TrackerConc.never_stuck"
   ],
   "note": "What a call does between lock operations and callbacks is one step with the effect proved in C33, C34 and C76; race_free shows nobody else looks at the lists meanwhile. The lock is a reader/writer lock with the contract of srw_lock."
  }
 ]
}