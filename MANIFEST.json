{"claims": [
  {"property": "C01", "status": "proved", "theorems": ["Verif.Queue.C01_content", "Verif.Queue.C01_fifo", "Verif.Queue.C01_pop_order", "Verif.Queue.C01_drain"], "note": "All histories of push/pop/inspect/pop-by-key/first-keys/size/clear on a new queue with page size >= 1; plus explicit prefix and drain forms for any reachable queue."},
  {"property": "C02", "status": "proved", "theorems": ["Verif.Queue.C02_push", "Verif.Queue.C02_unique_keys"], "note": "All reachable queues, including after restarts and crashes."},
  {"property": "C03", "status": "proved", "theorems": ["Verif.Queue.C03_size"], "note": "size and is_empty for all reachable queues."},
  {"property": "C04", "status": "proved", "theorems": ["Verif.Queue.C04_inspect"], "note": "All queues that hold a list (in particular all reachable ones)."},
  {"property": "C05", "status": "proved", "theorems": ["Verif.Queue.C05_pop_key"], "note": "All reachable queues."},
  {"property": "C06", "status": "proved", "theorems": ["Verif.Queue.C06_restart"], "note": "All reachable queues, any page size > 0 on reopening; the reopened queue is reachable again, so cycles compose."},
  {"property": "C07", "status": "partial", "theorems": ["Verif.Queue.C07_restart_order", "Verif.Queue.C07_order_partial", "Verif.Queue.C07_order_refuted"], "note": "False of the code: the last page is read back in reverse. C07_restart_order states the exact order after a restart, C07_order_partial the case of at most page_size+1 items, C07_order_refuted the counterexample."},
  {"property": "C08", "status": "proved", "theorems": ["Verif.Queue.C08_crash_between_calls", "Verif.Queue.C08_crash_in_call", "Verif.Queue.C08_crash_in_shut_down", "Verif.Queue.C08_crash_in_open", "Verif.Queue.C08_bound_is_tight"], "note": "Crash at every commit: between calls, inside calls, inside shut_down, inside the initial load. C08_bound_is_tight shows the bound is reached."},
  {"property": "C09", "status": "proved", "theorems": ["Verif.Queue.C09_clear"], "note": "All reachable queues."},
  {"property": "C10", "status": "partial", "theorems": ["Verif.Queue.C10_listed_partial", "Verif.Queue.C10_pushed_partial", "Verif.Queue.C10_first_keys_partial", "Verif.Queue.C10_after_open_partial", "Verif.Queue.C10_first_keys_refuted"], "note": "False of the code (a TODO in the source admits part of it): only the front page is listed. Proved: what is listed is a prefix; complete right after opening for up to a page."},
  {"property": "C11", "status": "partial", "theorems": ["Verif.Queue.C11_pop_none_partial", "Verif.Queue.C11_pop_none_refuted", "Verif.Queue.C11_forever_refuted"], "note": "False for page size 0: a witness, and that once two items are queued no pop ever returns one; proved for every page size above 0."},
  {"property": "C12", "status": "partial", "theorems": ["Verif.Queue.C12_second_shut_down_partial", "Verif.Queue.C12_two_pages", "Verif.Queue.C12_second_shut_down_refuted"], "note": "False for a non-empty queue whose pages are one shared object: C12_second_shut_down_refuted proves failure for all such queues; proved in all other cases."},
  {"property": "C13", "status": "partial", "theorems": ["Verif.Pending.C13_content", "Verif.Pending.C13_reprocess_all_partial", "Verif.Pending.C13_reprocess_all_any_partial", "Verif.Pending.C13_reprocess_all_refuted"], "note": "False when a failed item's key is pending again (C13_reprocess_all_refuted: the failed payload is lost). Proved: exact result without collisions; for every reachable pair, termination, emptied error queue, untouched pending items."},
  {"property": "C14", "status": "partial", "theorems": ["Verif.Pending.C14_reprocess_one_partial", "Verif.Pending.C14_reprocess_one_refuted"], "note": "False on the same key collision. Proved for keys that are not pending, and for absent keys."},
  {"property": "C15", "status": "partial", "theorems": ["Verif.Pending.C15_operator_calls_partial", "Verif.Pending.C15_pop_removes", "Verif.Pending.C15_operator_calls_refuted"], "note": "False for payloads without fields ({}): reported as not found, though popped. Proved for all non-empty payloads and all three operator calls; effect of pop for all payloads."},
  {"property": "C16", "status": "proved", "theorems": ["Verif.Buffered.C16_content", "Verif.Buffered.C16_attempts_bounded", "Verif.Buffered.C16_failed_after_all_attempts", "Verif.Buffered.C16_success_is_final", "Verif.Buffered.C16_failure_result", "Verif.Buffered.C16_all_fail"], "note": "All interleavings, all max_retries, span keys distinct (Fresh). Upper bound, exact count for failed messages, finality of success, result of each failed attempt, and termination with everything in the error queue when all attempts fail."},
  {"property": "C17", "status": "partial", "theorems": ["Verif.Buffered.C17_accounted_partial", "Verif.Buffered.C17_exactly_one_place_partial", "Verif.Buffered.C17_never_lost_partial", "Verif.Buffered.C17_never_lost_refuted"], "note": "False of the code: an exception in hook or handler loses the request (C17_never_lost_refuted). Proved: complete accounting including the lost ones, exactly one place per message with distinct span keys, nothing lost without exceptions."},
  {"property": "C18", "status": "partial", "theorems": ["Verif.Buffered.C18_awake_partial", "Verif.Buffered.C18_woken_partial", "Verif.Buffered.C18_worker_takes", "Verif.Buffered.C18_awake_refuted"], "note": "False of the code: the push is a separate task and may run after the worker has ended (C18_awake_refuted). Proved when pushes run while a worker lives; every acknowledgement, unpause and reprocess leaves a living worker; a running worker takes the oldest message."},
  {"property": "C19", "status": "partial", "theorems": ["Verif.Buffered.C19_awake_partial", "Verif.Buffered.C19_awake_refuted", "Verif.Buffered.C19_worker_takes"], "note": "False when the worker is ended by an exception (C19_awake_refuted); proved for all other executions."},
  {"property": "C20", "status": "partial", "theorems": ["Verif.Buffered.C20_commands_endpoint", "Verif.Buffered.C20_commands_sender", "Verif.Buffered.C20_paused_endpoint_partial", "Verif.Buffered.C20_still_accepted", "Verif.Buffered.C20_paused_sender_partial", "Verif.Buffered.C20_paused_refuted", "Verif.Pace.C20_waiting_sender_partial", "Verif.Pace.C20_waiting_refuted"], "note": "False of the code: reprocess commands unpause, even when they find nothing (C20_paused_refuted). Proved for every sequence of other events, for endpoints and senders; requests keep being accepted; the commands do what they say. With a wait period, the message a worker is waiting to send is still sent after the pause (C20_waiting_refuted), but no other (C20_waiting_sender_partial)."},
  {"property": "C21", "status": "partial", "theorems": ["Verif.Client.C21_unchanged_partial", "Verif.Client.C21_busy_refuted", "Verif.Client.C21_retry_partial"], "note": "First half proved (C21_unchanged_partial: both queues, the push tasks and the collected requests stay the same). The answer is not 'busy': the paused exception is not among those `_route_request` maps, so the reply has status 999 and a buffered sender moves the message to its error queue (C21_busy_refuted). C21_retry_partial: a 500 would be retried."},
  {"property": "C22", "status": "proved", "theorems": ["Verif.Buffered.C22_one_at_a_time_endpoint", "Verif.Buffered.C22_one_at_a_time_sender", "Verif.Buffered.C22_order_endpoint", "Verif.Buffered.C22_order_sender"], "note": "All interleavings. A failed message with attempts left re-enters at the end before the next is taken."},
  {"property": "C23", "status": "proved", "theorems": ["Verif.Buffered.C23_carried", "Verif.Buffered.C23_exact", "Verif.Buffered.C23_stored"], "note": "For kept metadata and payloads that read back as themselves. Hooks that mutate the metadata dict in place are not modelled."},
  {"property": "C24", "status": "proved", "theorems": ["Verif.Buffered.C24_content", "Verif.Buffered.C24_classification", "Verif.Buffered.C24_attempts_bounded", "Verif.Buffered.C24_success_is_final"], "note": "All reachable senders with distinct keys, all max_retries and outcomes."},
  {"property": "C25", "status": "partial", "theorems": ["Verif.Buffered.C25_accounted_partial", "Verif.Buffered.C25_never_lost_partial", "Verif.Buffered.C25_never_lost_refuted"], "note": "False of the code: cancellation or a payload that does not validate loses the message (C25_never_lost_refuted). Proved without these; complete accounting with them."},
  {"property": "C26", "status": "partial", "theorems": ["Verif.Buffered.C26_stop_endpoint_partial", "Verif.Buffered.C26_stop_sender_partial", "Verif.Buffered.C26_idle_stop_partial", "Verif.Buffered.C26_stop_refuted"], "note": "False of the code: the message being handled and accepted requests whose push has not run are lost (C26_stop_refuted). Proved for everything in the queues, and for all messages when idle."},
  {"property": "C27", "status": "partial", "theorems": ["Verif.Lru.C27_lookups_never_wrong_partial", "Verif.Lru.C27_store_visible", "Verif.Lru.C27_lookup_keeps", "Verif.Lru.C27_store_keeps", "Verif.Lru.C27_store_loses_one", "Verif.Lru.C27_removal_exact", "Verif.Lru.C27_pop_removes", "Verif.Lru.C27_get_never_raises", "Verif.Lru.C27_len_counts", "Verif.Lru.C27_pop_refuted"], "note": "Proved for peek, get, [] and pop_item in every state, with the exact effect of every call on every key; false for pop() once the ring is broken (C27_pop_refuted)."},
  {"property": "C28", "status": "partial", "theorems": ["Verif.Lru.C28_capacity_partial", "Verif.Lru.C28_capacity_keeping", "Verif.Lru.C28_capacity_refuted"], "note": "False of the code (C28_capacity_refuted). Proved: at most max_size plus the number of removals so far; hence the limit holds in histories without removals."},
  {"property": "C29", "status": "partial", "theorems": ["Verif.Lru.C29_least_recently_used_partial", "Verif.Lru.C29_evicts_last_partial", "Verif.Lru.C29_pop_order_partial", "Verif.Lru.C29_eviction_refuted", "Verif.Lru.C29_small_refuted"], "note": "False of the code (C29_eviction_refuted; max_size 1: C29_small_refuted). Proved as refinement to an ideal LRU cache when nothing is removed and the first key is not used again before the cache is full."},
  {"property": "C30", "status": "partial", "theorems": ["Verif.Lru.C30_iteration_partial", "Verif.Lru.C30_ideal_keys_once", "Verif.Lru.C30_iteration_refuted"], "note": "False of the code (C30_iteration_refuted). Proved under the conditions of C29."},
  {"property": "C31", "status": "proved", "theorems": ["Verif.Span.C31_text_round_trip", "Verif.Span.C31_text_injective"], "note": "All valid keys (64-bit span id, 128-bit trace id)."},
  {"property": "C32", "status": "proved", "theorems": ["Verif.Span.C32_bytes_round_trip", "Verif.Span.C32_from_bytes", "Verif.Span.C32_equality"], "note": "All valid keys; all byte strings."},
  {"property": "C33", "status": "partial", "theorems": ["Verif.Span.C33_span_ids_partial", "Verif.Span.C33_accepted_partial", "Verif.Span.C33_span_ids_refuted", "Verif.Span.C33_from_int", "Verif.Span.C33_negative_has_no_bytes"], "note": "False of the code: int(s,16) accepts signs, prefixes, underscores and blanks, giving negative or aliased ids. Proved: all 16-digit hexadecimal texts, all integers, and the exact range and re-parsing of anything accepted."},
  {"property": "C34", "status": "partial", "theorems": ["Verif.Server.C34_malformed", "Verif.Server.C34_schema_partial", "Verif.Server.C34_status_partial", "Verif.Server.C34_answered", "Verif.Server.C34_not_object", "Verif.Server.C34_schema_refuted", "Verif.Server.C34_unhandled_refuted"], "note": "Proved for every application and every JSON parser: malformed JSON gets 100, objects that are no request get 300, every text is answered unless application code raises a BaseException, and a routed request gets the status belonging to the way its run ended (C34_status_partial). Refuted in two points: JSON that is not an object gets 999 instead of 300 (C34_schema_refuted, exact statement C34_not_object); an endpoint function's own JSONDecodeError/ValidationError is reported as a malformed request (C34_unhandled_refuted)."},
  {"property": "C35", "status": "proved", "theorems": ["Verif.Server.C35_span_key"], "note": "For every text, application and JSON parser; C34_answered shows there is a response."},
  {"property": "C36", "status": "proved", "theorems": ["Verif.Server.C36_context", "Verif.Server.C36_unparsed", "Verif.Server.C36_nested"], "note": "C36_context for one request, C36_nested for every application written against the public interface, every sequence of texts and every nesting depth. One task is modelled, because a ContextVar belongs to a task."},
  {"property": "C37", "status": "partial", "theorems": ["Verif.Stream.C37_replies_partial", "Verif.Stream.C37_progress", "Verif.Stream.C37_chunking", "Verif.Stream.C37_prefix", "Verif.Stream.C37_framing", "Verif.Stream.C37_undecodable_refuted", "Verif.Stream.C37_long_refuted"], "note": "C37_chunking (no assumption on the bytes): what is written and how the connection stands depend only on the bytes, not on chunks or interleaving. C37_replies_partial: one reply per line in order, when the lines are UTF-8, fit asyncio's limit and the router answers. C37_prefix and C37_framing: at any time, also after resets, the replies written are complete lines answering the first lines. Refuted for lines that are not UTF-8 and over-long lines: the connection task dies."},
  {"property": "C38", "status": "partial", "theorems": ["Verif.Stream.C38_ack", "Verif.Stream.C38_untouched", "Verif.Stream.C38_transparent", "Verif.Stream.C38_datagram_refuted"], "note": "Stream transports: C38_ack, C38_untouched, C38_transparent. The datagram server tests for the wrong byte (C38_datagram_refuted)."},
  {"property": "C39", "status": "proved", "theorems": ["Verif.Server.C39_unknown", "Verif.Server.C39_registered"], "note": "C39_registered covers every registration history; that the registered handler is the one run is part of C40_chain."},
  {"property": "C40", "status": "proved", "theorems": ["Verif.Server.C40_chain"], "note": "Stated on traces of calls with arguments and results, for hooks that do not themselves handle requests in the same task (Silent); hooks may keep state and raise."},
  {"property": "C41", "status": "proved", "theorems": ["Verif.Server.C41_arguments", "Verif.Server.C41_called", "Verif.Server.C41_buffered", "Verif.Server.C41_uid"], "note": "Python's keyword binding is modelled for normal, positional-only, * and ** parameters. The framework's arguments are span_key and dto."},
  {"property": "C42", "status": "partial", "theorems": ["Verif.Client.C42_status_partial", "Verif.Client.C42_distinct", "Verif.Client.C42_success", "Verif.Client.C42_denied_refuted", "Verif.Client.C42_data_refuted", "Verif.Client.C42_malformed_refuted", "Verif.Client.C42_documented_partial"], "note": "Proved for every status except 200 and for success with data of the caller's type (C42_status_partial, C42_distinct, C42_success); C42_documented_partial covers a whole send. Refuted for 200 (AttributeError), success without an object (TypeError) and malformed replies (JSONDecodeError)."},
  {"property": "C43", "status": "partial", "theorems": ["Verif.Client.C43_attempts", "Verif.Client.C43_bound", "Verif.Client.C43_zero_refuted", "Verif.Client.C43_reconnect_refuted"], "note": "C43_attempts: for max_retries > 0 the loop equals an independent verdict on the list of attempt outcomes; C43_bound for all values and schedules. Refuted for max_retries <= 0 (nothing is attempted, the caller gets TypeError) and for a persistent client whose reconnect fails (raw OSError instead of further attempts)."},
  {"property": "C44", "status": "partial", "theorems": ["Verif.Client.C44_transient", "Verif.Client.C44_persistent_partial", "Verif.Client.C44_fifo", "Verif.Client.C44_late_refuted", "Verif.Client.C44_shift_refuted", "Verif.Client.C44_lost_refuted", "Verif.Client.C44_datagram_partial", "Verif.Client.C44_datagram_refuted"], "note": "C44_transient: one connection per request, at most one reply, to that request. C44_persistent_partial for schedules without time-outs, and connection losses with at most one waiter; C44_fifo: replies are handed out in the order written. Refuted after a time-out (every later reply is shifted by one, C44_shift_refuted), after a loss with several waiters, and for late datagrams."},
  {"property": "C45", "status": "partial", "theorems": ["Verif.Client.C45_alone_partial", "Verif.Client.C45_datagram", "Verif.Client.C45_disturbed_refuted"], "note": "C45_datagram: datagram sends end as they would alone. C45_alone_partial: stream sends too, except a send that had a retryable failure while another succeeded: it returns None, hence TypeError (C45_disturbed_refuted), because `self.success` is shared."},
  {"property": "C46", "status": "partial", "theorems": ["Verif.Errors.C46_count_partial", "Verif.Errors.C46_bounds_partial", "Verif.Errors.C46_listed", "Verif.Errors.C46_described_partial", "Verif.Errors.C46_clearing_partial", "Verif.Errors.C46_case", "Verif.Errors.C46_negative_refuted"], "note": "Proved for every history that clears no negative number: exact counts under any spelling of the id (C46_count_partial), bounds, descriptions; listing and case-insensitivity (C46_listed, C46_case) without exception. Refuted for negative numbers: a request to clear -n adds n (C46_negative_refuted). `str.upper` is an uninterpreted function."},
  {"property": "C47", "status": "partial", "theorems": ["Verif.Stats.C47_set", "Verif.Stats.C47_defined", "Verif.Stats.C47_increment", "Verif.Stats.C47_increment_again", "Verif.Stats.C47_reserved_refuted"], "note": "C47_set, C47_defined, C47_increment, C47_increment_again for every store and all names. Refuted for names the keeper writes itself, such as application.version: the next report has lost the statistic (C47_reserved_refuted). Numbers are exact rationals."},
  {"property": "C48", "status": "partial", "theorems": ["Verif.Stats.C48_never_raises", "Verif.Stats.C48_calls_partial", "Verif.Stats.C48_counted_partial", "Verif.Stats.C48_listed_partial", "Verif.Stats.C48_clash_refuted", "Verif.Stats.C48_percentiles_partial", "Verif.Stats.C48_gather_partial"], "note": "C48_calls_partial for every sequence of registrations, calls, settings, readings and gatherings, provided the application leaves endpoint_data alone and no route extends another by the name of a statistic; also: counting never raises, percentiles are those of exactly the period's calls. Refuted for routes such as a and a.p95 (C48_clash_refuted): counts are overwritten, gathering and calls raise. Every endpoint registered or called stays listed in every later report (C48_listed_partial). C48_never_raises: if no statistic stands where another needs a dictionary, no operation of the keeper raises in any history, buffered queues included."},
  {"property": "C49", "status": "partial", "theorems": ["Verif.Stats.C49_history_partial", "Verif.Stats.C49_newest", "Verif.Stats.C49_lowered_refuted"], "note": "C49_history_partial: exact content while the length is not changed; C49_newest: always the newest, newest first. Refuted when set_history_length lowers the length at run time: one entry is dropped per gathering, so the history stays too long (C49_lowered_refuted)."},
  {"property": "C50", "status": "partial", "theorems": ["Verif.Stats.C50_order", "Verif.Stats.C50_low", "Verif.Stats.C50_cover", "Verif.Stats.C50_high_partial", "Verif.Stats.C50_none", "Verif.Stats.C50_high_refuted"], "note": "Order, lower bound, coverage (at least 95% / 99% of the calls are not longer) and -1 exactly for no calls are proved for all data. p95 <= longest proved from 19 calls, p99 from 99; refuted for p99 with 2 to 98 calls when one call was the longest (extrapolation by statistics.quantiles). Exact rationals instead of floats."},
  {"property": "C51", "status": "proved", "theorems": ["Verif.Config.C51_precedence", "Verif.Config.C51_instance_only", "Verif.Config.C51_fields", "Verif.Config.C51_success", "Verif.Config.C51_defaults", "Verif.Config.C51_separate", "Verif.Config.C51_isolated_partial", "Verif.Config.C51_isolated_refuted", "Verif.Config.C51_level_refuted", "Verif.Config.C51_host_port", "Verif.Config.C51_bad_address", "Verif.Config.C51_servers"], "note": "Precedence, emptiness, documented names, defaults, start-up success, addresses and servers are proved for all environments (C51_precedence and its companions). Isolation between applications holds only for instance ids without underscores (C51_isolated_partial); refuted otherwise (C51_isolated_refuted, C51_level_refuted). ASCII letters only."},
  {"property": "C52", "status": "partial", "theorems": ["Verif.Config.C52_precedence", "Verif.Config.C52_others_partial", "Verif.Config.C52_others_refuted"], "note": "C52_precedence gives the exact value shown for every name. 'Other applications do not shadow' is proved when neither application name extends the other (C52_others_partial) and refuted otherwise (C52_others_refuted)."},
  {"property": "C53", "status": "partial", "theorems": ["Verif.Lock.C53_serial_partial", "Verif.Lock.C53_lock_names", "Verif.Lock.C53_refused", "Verif.Lock.C53_race_refuted", "Verif.Lock.C53_user_refuted"], "note": "Proved for all schedules in which lock checks do not overlap and processes may signal each other (C53_serial_partial, C53_lock_names, C53_refused); refuted for overlapping starts (C53_race_refuted) and for different users (C53_user_refuted)."},
  {"property": "C54", "status": "partial", "theorems": ["Verif.Logs.C54_in_order", "Verif.Logs.C54_flushed", "Verif.Logs.C54_console", "Verif.Logs.C54_bound_partial", "Verif.Logs.C54_bound_logged", "Verif.Logs.C54_lowered_refuted"], "note": "Order and exactly-once for every history, complete after flush or shut-down, console included. The bound by the current buffer size fails after lowering it while INFO is off (C54_lowered_refuted); it holds whenever a record has just been logged and for the largest size that was in force. Records whose text cannot be formatted are dropped by logging itself and are left out of the expected content."},
  {"property": "C55", "status": "partial", "theorems": ["Verif.Logs.C55_immediate_partial", "Verif.Logs.C55_writer_partial", "Verif.Logs.C55_buffered_refuted"], "note": "Proved for buffer sizes up to one; with larger sizes records are formatted when written, with the key of whoever triggers the write (C55_writer_partial, C55_buffered_refuted)."},
  {"property": "C56", "status": "partial", "theorems": ["Verif.Shipper.C56_prefix", "Verif.Shipper.C56_all", "Verif.Shipper.C56_rotated_names", "Verif.Shipper.C56_two_rotations_refuted", "Verif.Shipper.C56_unanswered_refuted", "Verif.Shipper.C56_malformed_refuted"], "note": "Prefix safety and eventual completeness for every schedule with at most one rotation between polls, any chunks and refused requests, when every line parses. Refuted: two rotations between polls lose a file, a lost answer delivers twice, a malformed line stops the file for ever."},
  {"property": "C57", "status": "partial", "theorems": ["Verif.Shipper.C57_at_least_once_partial", "Verif.Shipper.C57_one_file", "Verif.Shipper.C57_rotated_while_down_refuted", "Verif.Shipper.C57_killed_in_outage_refuted", "Verif.Shipper.C57_inode_reused_refuted", "Verif.Shipper.C57_rotated_while_opening_refuted", "Verif.Shipper.C57_renamed_while_polling_refuted"], "note": "At least once for every schedule of kills in which files rotated away are delivered before the kill; without rotation for every kill at any moment (C57_one_file). Refuted: rotation while down, kill during a collector outage after a rotation, reused inode number, rotation between stat and open."},
  {"property": "C58", "status": "partial", "theorems": ["Verif.Prom.C58_exact", "Verif.Prom.C58_calls_partial", "Verif.Prom.C58_default_partial", "Verif.Prom.C58_custom", "Verif.Prom.C58_custom_only", "Verif.Prom.C58_custom_collision_refuted", "Verif.Prom.C58_one_part_refuted", "Verif.Prom.C58_three_parts_refuted", "Verif.Prom.C58_clash_refuted"], "note": "For every report an ordinary application's keeper can give: the export never raises, and its endpoint and queue metrics are exactly those of the report at <branch>.<group>.<endpoint> outside the excluded groups, undefined percentiles left out (C58_exact). Call counts of all endpoints with two-part routes are exported, none of group eco (C58_calls_partial, C58_default_partial). Refuted for routes with one or three parts, for routes such as a.b.p95 (the export ends with TypeError), and for own statistics whose names coincide after replacing dots."},
  {"property": "C59", "status": "partial", "theorems": ["Verif.Cli.C59_endpoint", "Verif.Cli.C59_unknown_queue", "Verif.Cli.C59_needs_key", "Verif.Cli.C59_needs_key_exit", "Verif.Cli.C59_exclusive", "Verif.Cli.C59_listed", "Verif.Cli.C59_listed_restart_partial", "Verif.Cli.C59_bsm_refuted", "Verif.Cli.C59_sender_partial", "Verif.Cli.C59_address_refuted", "Verif.Cli.C59_unknown_server", "Verif.Cli.C59_needs_queue"], "note": "Endpoint tool: every option is carried out on exactly the endpoint named, answered truthfully; keys required, options exclusive, listed keys usable (C59_endpoint and others). Refuted for the sender tool, which always ends with an AttributeError (C59_bsm_refuted); its server side is proved for a repaired command line (C59_sender_partial). Addresses with more than one colon or an empty part end with an exception (C59_address_refuted). C59_unknown_server: an unknown kind of server ends both tools with exit code 2; C59_needs_queue: without a route key they end with exit code 1; nothing is sent."},
  {"property": "C60", "status": "partial", "theorems": ["Verif.Wire.C60_data", "Verif.Wire.C60_injective", "Verif.Wire.C60_line", "Verif.Wire.C60_framing", "Verif.Wire.C60_request", "Verif.Wire.C60_response", "Verif.Wire.C60_call", "Verif.Wire.C60_cut", "Verif.Wire.C60_white", "Verif.Wire.C60_trailing", "Verif.Wire.C60_nonfinite_refuted", "Verif.Wire.C60_digits_refuted", "Verif.Wire.C60_long_refuted"], "note": "C60_data, C60_injective: JSON written and read back is the same, for all strings and nestings, whole numbers up to 4300 digits and finite floats (float conversion is a parameter). C60_line, C60_framing: one line feed, at the end, also in bytes. C60_request, C60_response, C60_call: both directions and whole calls. C60_cut: a response cut off anywhere is never taken for one. C60_trailing: anything after the message is refused. Refuted for NaN and infinities (arrive as None), whole numbers over 4300 digits (status 999), and responses over the reader limit."},
  {"property": "C61", "status": "proved", "theorems": ["Verif.Stream.C61_datagrams", "Verif.Stream.C61_each", "Verif.Stream.C61_progress"], "note": "The fairness of asyncio.Lock (waiters in order of arrival) and of task start order is part of the model. Requests for which no response can be built (BaseException, unserialisable data) get none; datagrams that are not UTF-8 are ignored."},
  {"property": "C62", "status": "partial", "theorems": ["Verif.Config.C62_file_wins", "Verif.Config.C62_rest_partial", "Verif.Config.C62_missing_fields", "Verif.Config.C62_host_refuted", "Verif.Config.C62_malformed_refuted", "Verif.Config.C62_instances"], "note": "C62_file_wins and C62_instances hold in full; 'what the file leaves out stays' holds except for the parts of an address (C62_rest_partial, C62_host_refuted); a malformed number in the environment stops the application although the file overrides it (C62_malformed_refuted). C62_missing_fields: the parts of an address the file does not give are the documented defaults."},
  {"property": "C64", "status": "partial", "theorems": ["Verif.Config.C64_plain", "Verif.Config.C64_camel", "Verif.Config.C64_shape", "Verif.Config.C64_unique_refuted", "Verif.Config.C64_extension_refuted"], "note": "Exact for lower case and camel case script names; uniqueness and 'only the extension is removed' are refuted. ASCII letters."},
  {"property": "C65", "status": "partial", "theorems": ["Verif.Config.C65_buffers", "Verif.Config.C65_names", "Verif.Config.C65_instances_partial", "Verif.Config.C65_lock_refuted", "Verif.Config.C65_socket_refuted", "Verif.Config.C65_buffer_refuted", "Verif.Config.C65_databases_partial", "Verif.Config.C65_question_refuted"], "note": "Within one instance proved for all routes (C65_buffers); across instances only without hyphens (underscores for sockets) in the names, refuted otherwise. C65_names: the documented file names, in full. C65_databases_partial / C65_question_refuted: what SQLAlchemy makes of the names (question marks)."},
  {"property": "C66", "status": "partial", "theorems": ["Verif.Lock.C66_start_partial", "Verif.Lock.C66_same_pid_refuted", "Verif.Lock.C66_reused_pid_refuted", "Verif.Lock.C66_reused_pid_gone", "Verif.Lock.C66_empty_refuted"], "note": "C66_start_partial: no lock file, or one naming a process that is gone and is not the new process. Refuted for a reused process id, for the same process id again (containers) and for an empty lock file left by a crash. C66_reused_pid_gone: once the program with the reused id has ended, the instance starts."},
  {"property": "C63", "status": "partial", "theorems": ["Verif.Logs.C63_ignored_refuted", "Verif.Logs.C63_configured_refuted", "Verif.Logs.C63_set_partial"], "note": "The configured level is never used (C63_ignored_refuted, C63_configured_refuted); after eco.log.level the level is exact."},
  {"property": "C67", "status": "partial", "theorems": ["Verif.Logs.C67_newest_kept", "Verif.Logs.C67_size_partial", "Verif.Logs.C67_unicode_refuted", "Verif.Logs.C67_no_files_refuted"], "note": "Order, number of files and retention proved for every history from an empty directory; the size bound holds if no line has more bytes than characters and max_files > 0, and is refuted otherwise."},
  {"property": "C68", "status": "partial", "theorems": ["Verif.Scrape.C68_found", "Verif.Scrape.C68_names_partial", "Verif.Scrape.C68_local", "Verif.Scrape.C68_uds_partial", "Verif.Scrape.C68_default_socket_refuted", "Verif.Scrape.C68_names_refuted", "Verif.Scrape.C68_phantom_refuted", "Verif.Scrape.C68_file_refuted"], "note": "Every service configured by its variable on a local TCP or UDP address is discovered with exactly that protocol and address (C68_found), everything discovered comes from such a variable (C68_local), under its own name if the instance has no underscore and no lower-case letter (C68_names_partial), socket files unless the default file name is asked for (C68_uds_partial). Refuted for the default socket, other instance names, and addresses given in the configuration file. C68_phantom_refuted: a variable without instance id configures no server but is discovered as instance 0."},
  {"property": "C69", "status": "partial", "theorems": ["Verif.Scrape.C69_health_partial", "Verif.Scrape.C69_twice_refuted", "Verif.Scrape.C69_clash_refuted", "Verif.Scrape.C69_renamed_refuted"], "note": "Exact health of every service and of no other when services are listed once under their own names and answer with an ordinary application's report or with none yet (C69_health_partial). Refuted for services with two protocols, for the translator's exception on clashing routes, and for instances discovered under another name."},
  {"property": "C70", "status": "partial", "theorems": ["Verif.Cli.C70_stat_partial", "Verif.Cli.C70_usage", "Verif.Cli.C70_gathered_refuted"], "note": "Proved for a positive history length that is not changed later (C70_stat_partial); refuted for length 0 (C70_gathered_refuted). C70_usage: an unknown kind of server ends the tool with exit code 2."},
  {"property": "C71", "status": "partial", "theorems": ["Verif.Traces.C71_once", "Verif.Traces.C71_source", "Verif.Traces.C71_running_partial", "Verif.Traces.C71_request_partial", "Verif.Traces.C71_failed_lost", "Verif.Traces.C71_failed_refuted", "Verif.Traces.C71_leak_refuted", "Verif.Traces.C71_same_key_refuted", "Verif.Traces.C71_zero_refuted"], "note": "False of the code: a request whose handler raises never has its span finished (and it stays in memory), two requests in progress with the same span key mix up their spans, and keys with a zero id start a trace of their own. Proved for all interleavings: no span is finished twice, every span has its source, and a handled request that no other request with the same span key overlaps has exactly one finished span, child of the caller's."},
  {"property": "C72", "status": "partial", "theorems": ["Verif.Traces.C72_child_partial", "Verif.Traces.C72_stored", "Verif.Traces.C72_result_partial", "Verif.Traces.C72_crash_lost", "Verif.Traces.C72_crash_refuted", "Verif.Traces.C72_same_key_refuted"], "note": "False of the code: an attempt that raises never has its span finished, and two attempts with the same span key at the same time mix up their spans. Proved for all interleavings and restarts: attempts are children of the span of the request that queued them, and an undisturbed attempt's span is finished exactly once with its result."},
  {"property": "C73", "status": "partial", "theorems": ["Verif.Envelope.C73_time", "Verif.Envelope.C73_lines", "Verif.Envelope.C73_batch_partial", "Verif.Envelope.C73_file_partial", "Verif.Envelope.C73_mixed_partial", "Verif.Envelope.C73_attributes", "Verif.Envelope.C73_attributes_refuted", "Verif.Envelope.C73_resource_refuted", "Verif.Envelope.C73_time_refuted", "Verif.Envelope.C73_all_or_nothing"], "note": "C73_time: the calendar round trip for every instant until July 2554. C73_lines: one line per call, whatever is logged. C73_batch_partial, C73_file_partial: a collector reads exactly the calls, in order. C73_mixed_partial: with several applications the records are right but stand under the first one's resource. C73_all_or_nothing: a line that is not a record keeps the whole batch from being posted. Refuted for batches of several instances and for times after July 2554. C73_attributes: texts, flags and signed 64 bit numbers arrive as they are; unsigned ones from 2^63 on become negative (C73_attributes_refuted)."},
  {"property": "C74", "status": "partial", "theorems": ["Verif.Life.C74_saved_partial", "Verif.Life.C74_started", "Verif.Life.C74_kept_partial", "Verif.Life.C74_half_started_refuted", "Verif.Life.C74_not_started_refuted", "Verif.Life.C74_interrupted_refuted", "Verif.Life.C74_servers_stopped"], "note": "C74_saved_partial: for every body, failing set-up and signal before the application begins to stop, all opened queues are saved once and in order (C74_kept_partial: reopening finds their contents); C74_started: an application that started saves all and flushes. Refuted: a server in the middle of starting, a context that ends without start (AttributeError, no flush), a second signal or a failing save (later queues are not saved). C74_servers_stopped: without an exception no server is left running."},
  {"property": "C75", "status": "partial", "theorems": ["Verif.Life.C75_exact", "Verif.Life.C75_waiting_partial", "Verif.Life.C75_busy_refuted", "Verif.Life.C75_stop_before_start", "Verif.Life.C75_stop_refuted"], "note": "C75_exact: a signal ends the application exactly when it strikes the waiting loop or a task gather waits for. Refuted for everything else: requests (answered 999), buffered endpoints (task and request lost), buffered senders (message put into the error queue). stop() prevents a later start (C75_stop_before_start), but a running application does not look at it (C75_stop_refuted)."},
  {"property": "C76", "status": "partial", "theorems": ["Verif.Delivery.C76_sent_partial", "Verif.Delivery.C76_payload_partial", "Verif.Delivery.C76_accounted_partial", "Verif.Delivery.C76_persistent_refuted", "Verif.Delivery.C76_datagram_refuted"], "note": "C76_sent_partial: for transient clients in every run, for the others as long as no written request is given up while its reply may come on the connection used next, a message counted as sent was accepted by the endpoint under its key; C76_payload_partial: with its payload; C76_accounted_partial: composed with C17 and C25, no message disappears between the two applications. Refuted for persistent and datagram clients with late replies."},
  {"property": "C77", "status": "partial", "theorems": ["Verif.Delivery.C77_accepted_once_partial", "Verif.Delivery.C77_processed_once_partial", "Verif.Delivery.C77_twice_refuted"], "note": "C77_accepted_once_partial, C77_processed_once_partial: any client kind, as long as no written request is given up and nobody else talks to the endpoint (failures before writing, refusals, retries through the queue, pauses, operator actions are all allowed). Refuted when a try times out after the endpoint accepted the message."},
  {"property": "C78", "status": "partial", "theorems": ["Verif.Tasks.C78_lines_partial", "Verif.Tasks.C78_complete_partial", "Verif.Tasks.C78_own_key_partial", "Verif.Tasks.C78_sender_refuted"], "note": "For every run of the event loop: C78_lines_partial: what is logged is a sub-multiset of the lines of the programs, each with the key of the innermost request or message in whose text it stands; C78_complete_partial: all of them, once, when nothing is left and nothing was raised; C78_own_key_partial: a line of one request is never logged under another key. Missing: workers of buffered senders that log (C78_sender_refuted: they log under the key of the request that started the worker)."},
  {"property": "C79", "status": "proved", "theorems": ["Verif.Tasks.C79_order", "Verif.Tasks.C79_kept", "Verif.Tasks.C79_no_leak"], "note": "C79_order: run_soon functions begin in call order, each once, all of them when the loop is idle; C79_kept: their tasks are in FIRE_AND_FORGET_TASKS until over; C79_no_leak: nothing else is, and it is empty when the loop is idle. That the bodies run exactly once is C78_complete_partial."},
  {"property": "C80", "status": "partial", "theorems": ["Verif.Chain.C80_chain_partial", "Verif.Chain.C80_apart_partial", "Verif.Chain.C80_sent", "Verif.Chain.C80_no_key", "Verif.Chain.C80_not_taken", "Verif.Chain.C80_positional_refuted", "Verif.Chain.C80_merged_refuted"], "note": "C80_chain_partial: applications that pass span_key on as a keyword argument, any trees of calls depending on answers, any chain length: every request carries the first one's key and text; C80_apart_partial: chains of different keys stay apart; C80_sent, C80_not_taken: which sender functions take the key. Refuted: positional span_key is ignored (new key); a second message of the chain through the same buffered sender is silently dropped while the first waits."},
  {"property": "C81", "status": "partial", "theorems": ["Verif.Wiring.C81_exact", "Verif.Wiring.C81_opened_partial", "Verif.Wiring.C81_raises", "Verif.Wiring.C81_managed", "Verif.Wiring.C81_same_route_refuted", "Verif.Wiring.C81_late_refuted", "Verif.Wiring.C81_singleton"], "note": "C81_exact: after any declarations and the start an object is set up exactly once iff it is the first endpoint of its route and buffered, or the last buffered sender of its route; otherwise never, and pushing raises AttributeError. C81_opened_partial: buffered senders with routes of their own; C81_raises, C81_managed, C81_singleton in full. Refuted: the earlier of two buffered senders with one route is never opened (C81_same_route_refuted), nor what is declared after the start (C81_late_refuted)."},
  {"property": "C82", "status": "partial", "theorems": ["Verif.Buffered.C82_bounded_sender", "Verif.Buffered.C82_bounded_endpoint", "Verif.Buffered.C82_sender_partial", "Verif.Buffered.C82_endpoint_partial", "Verif.Buffered.C82_late_push_refuted"], "note": "C82_bounded_sender, C82_bounded_endpoint: in full, the number of own events is at most the attempts left (plus a constant per request on its way in). C82_sender_partial, C82_endpoint_partial: every scheduler that keeps going ends within the bound with nothing pending and all known messages handled, failed or removed; missing are exceptions, unreadable payloads and (endpoint) the push that runs after the worker ended: C82_late_push_refuted has a pending request with which the endpoint can do nothing on its own."},
  {"property": "C83", "status": "partial", "theorems": ["Verif.Hooks.C83_push", "Verif.Hooks.C83_queued", "Verif.Hooks.C83_merged_partial", "Verif.Hooks.C83_order", "Verif.Hooks.C83_retries", "Verif.Hooks.C83_reprocess", "Verif.Hooks.C83_unchanged_partial", "Verif.Hooks.C83_life_partial", "Verif.Hooks.C83_stored", "Verif.Hooks.C83_stored_once", "Verif.Hooks.C83_tuple_refuted", "Verif.Hooks.C83_object_refuted", "Verif.Hooks.C83_in_place_refuted", "Verif.Hooks.C83_after_refuted"], "note": "C83_life_partial: the whole way, for hooks and handlers that leave their arguments alone and metadata that JSON can express (C83_stored: exactly those values survive). C83_order, C83_push, C83_queued, C83_retries, C83_reprocess hold for all hooks. Refuted: tuples and integer keys change, metadata pydantic cannot serialise loses an acknowledged message, payload and metadata changed in place reach the next attempt changed, after_process is not called when the handler raises."},
  {"property": "C84", "status": "partial", "theorems": ["Verif.Cli.C84_asked", "Verif.Cli.C84_level", "Verif.Cli.C84_size_partial", "Verif.Cli.C84_both_refuted", "Verif.Cli.C84_nothing", "Verif.Cli.C84_refused"], "note": "C84_asked: tool and endpoints together are the asked events of the log's history; C84_level: the level holds from then on; C84_size_partial: the buffer size holds once a record is logged, and at once if the level lets info records through. Refuted (C84_both_refuted): level error and buffer size 0 asked for together leave what was buffered unwritten, because the level is applied first."},
  {"property": "C85", "status": "partial", "theorems": ["Verif.Stats.C85_total", "Verif.Stats.C85_flat", "Verif.Stats.C85_recorded_partial", "Verif.Stats.C85_calls_partial", "Verif.Stats.C85_dot_refuted", "Verif.Stats.C85_general_refuted"], "note": "C85_total describes flattening of every dictionary completely; C85_recorded_partial and C85_calls_partial: for every history of the keeper the flattened statistics are exactly the recorded ones, if no key in that part begins with a dot. Refuted (C85_dot_refuted): routes \"a\" and \".a\" are one entry after flattening."},
  {"property": "C86", "status": "partial", "theorems": ["Verif.Address.C86_ipv4", "Verif.Address.C86_hostname_partial", "Verif.Address.C86_labels", "Verif.Address.C86_first_check", "Verif.Address.C86_read_partial", "Verif.Address.C86_given", "Verif.Address.C86_machine", "Verif.Address.C86_read_refuted"], "note": "C86_ipv4 and C86_given hold for every text; C86_hostname_partial and C86_read_partial for texts of ASCII characters without line feeds; C86_labels says for every text what is accepted. Refuted (C86_read_refuted): ports above 65535 and labels followed by a line feed are accepted; an empty host and a missing colon raise instead of being refused."},
  {"property": "C87", "status": "partial", "theorems": ["Verif.Cli.Help.C87_words", "Verif.Cli.Help.C87_lines", "Verif.Cli.Help.C87_width_partial", "Verif.Cli.Help.C87_fill", "Verif.Cli.Help.C87_long_refuted"], "note": "C87_words, C87_lines and C87_fill hold for every text and width; C87_width_partial needs every word to fit. Refuted (C87_long_refuted): a word longer than the width at the beginning of a line is preceded by an empty line."},
  {"property": "C88", "status": "partial", "theorems": ["Verif.Cli.C88_json", "Verif.Cli.C88_answer", "Verif.Cli.C88_screen", "Verif.Cli.C88_endpoint", "Verif.Cli.C88_sender_partial", "Verif.Cli.C88_messages", "Verif.Cli.C88_names", "Verif.Cli.C88_sender_names_partial", "Verif.Cli.C88_sender_messages_partial", "Verif.Cli.C88_no_request", "Verif.Cli.C88_unknown", "Verif.Cli.C88_titled"], "note": "C88_json (round trip and ASCII), C88_answer, C88_screen (injective for all messages), C88_endpoint (composed with C59), C88_messages, C88_unknown and C88_titled hold in full. For senders (C88_sender_partial, C88_sender_messages_partial) the server's side and the screen are right; missing: the tool bsm sends nothing (C59_bsm_refuted). C88_no_request: an answer without a message names the key and the queue."},
  {"property": "C89", "status": "partial", "theorems": ["Verif.Telemetry.C89_points_partial", "Verif.Telemetry.C89_endpoints_partial", "Verif.Telemetry.C89_source", "Verif.Telemetry.C89_name_refuted", "Verif.Telemetry.C89_standard_refuted"], "note": "C89_points_partial: exactly the recorded numbers, each once, for routes that contain no name of a statistic as a part (and begin with neither dot nor nothing). Missing: such routes, which are written under another route's name (C89_name_refuted), and own routes below \"eco\", which are not written (C89_standard_refuted). C89_source: which report is written."},
  {"property": "C90", "status": "partial", "theorems": ["Verif.Telemetry.C90_network", "Verif.Telemetry.C90_target", "Verif.Telemetry.C90_uds_partial", "Verif.Telemetry.C90_uds_refuted", "Verif.Telemetry.C90_server_types"], "note": "C90_network and C90_target hold in full; C90_uds_partial only where a file called \"uds\" exists: the example checks for that name instead of the socket file (C90_uds_refuted)."},
  {"property": "C91", "status": "partial", "theorems": ["Verif.Address.C91_general", "Verif.Address.C91_simple_partial", "Verif.Address.C91_refuted"], "note": "C91_general says exactly which texts are accepted. C91_simple_partial: for visible ASCII without brackets these are the URLs. Missing: texts with control characters and spaces, which are accepted though they are none (C91_refuted)."},
  {"property": "C92", "status": "proved", "theorems": ["Verif.Fun.C92_records", "Verif.Fun.C92_any_order", "Verif.Fun.C92_negative"], "note": "C92_records: the exact table after any sequence, for keys with bytes; C92_negative: other keys raise and change nothing. C92_any_order: same messages, same records, up to numbering."},
  {"property": "C93", "status": "partial", "theorems": ["Verif.Fun.C93_service_partial", "Verif.Fun.C93_lotto_partial", "Verif.Fun.C93_too_long_refuted", "Verif.Fun.C93_lotto_one", "Verif.Fun.C93_refuted"], "note": "C93_service_partial and C93_lotto_partial: for requests in ASCII, and numbers of at most 4300 digits with at most one minus sign. C93_lotto_one: no number, one set. Missing: two minus signs, which pass the check and then raise, and a blank before the first word (C93_refuted); requests beyond ASCII, where lower() may turn other characters into these names."},
  {"property": "C94", "status": "partial", "theorems": ["Verif.Fun.C94_lottery", "Verif.Fun.C94_every_line", "Verif.Fun.C94_so_many", "Verif.Fun.C94_dice_partial", "Verif.Fun.C94_dice_refuted", "Verif.Fun.C94_roll_times", "Verif.Fun.C94_roll_times_few"], "note": "C94_lottery, C94_every_line, C94_so_many: the lottery in full. C94_dice_partial: a die shows 1 to n-1, each possible. Missing: the highest side, which never shows, and a die with one side, which raises (C94_dice_refuted). C94_roll_times, C94_roll_times_few: what roll_times sums up and when it is done."},
  {"property": "C95", "status": "partial", "theorems": ["Verif.Pace.C95_paced", "Verif.Pace.C95_in_turn", "Verif.Pace.C95_rate", "Verif.Pace.C95_at_once", "Verif.Pace.C95_not_longer", "Verif.Pace.C95_same_sender", "Verif.Pace.C95_attempts", "Verif.Pace.C95_transmissions_refuted", "Verif.Pace.C95_single_attempt_partial"], "note": "C95_paced, C95_in_turn, C95_rate, C95_at_once, C95_not_longer, C95_same_sender: of the calls to the client, in full. Missing for what reaches the network: the client's own retries, which are the retry delay apart and not the wait period (C95_transmissions_refuted, C95_attempts); with a single attempt it holds (C95_single_attempt_partial)."},
  {"property": "C96", "status": "partial", "theorems": ["Verif.Link.C96_one_connection", "Verif.Link.C96_first_message", "Verif.Link.C96_attempts", "Verif.Link.C96_kept_partial", "Verif.Link.C96_first_refuted"], "note": "C96_one_connection (Python closing dropped writers), C96_first_message, C96_attempts: for all runs. C96_kept_partial: once settled, as stated. Missing: the first message (C96_first_refuted): the heartbeat task, due because nothing was ever sent, opens a second connection that replaces the first, so that the message is written twice over three connections, or two connections stay open with older versions of Python."},
  {"property": "C97", "status": "partial", "theorems": ["Verif.Link.C97_in_use", "Verif.Link.C97_survives", "Verif.Link.C97_restarted", "Verif.Link.C97_regular_partial", "Verif.Link.C97_regained_partial", "Verif.Link.C97_regain_refuted"], "note": "C97_in_use, C97_restarted, C97_survives: in full. C97_regular_partial, C97_regained_partial: while the heartbeat task is alive, every period, and within three periods of a loss. Missing: a read that times out or breaks, or connecting failing other than by refusal, ends the heartbeat task; nothing is tried until the next message (C97_regain_refuted)."},
  {"property": "C98", "status": "partial", "theorems": ["Verif.Transient.C98_one_message", "Verif.Transient.C98_attempts", "Verif.Transient.C98_closed", "Verif.Transient.C98_in_use", "Verif.Transient.C98_smooth_partial", "Verif.Transient.C98_once_partial", "Verif.Transient.C98_resent_refuted", "Verif.Transient.C98_left_open_refuted"], "note": "C98_one_message, C98_attempts, C98_closed: for all runs. C98_smooth_partial: when nothing fails, as stated. C98_once_partial: not sent again, if closing does not fail. Missing: closing a connection may raise after the response was read, and the message is sent again (C98_resent_refuted); connections of attempts that failed are not closed (C98_left_open_refuted)."},
  {"property": "C99", "status": "partial", "theorems": ["Verif.Datagram.C99_bound", "Verif.Datagram.C99_kept", "Verif.Datagram.C99_one_partial", "Verif.Datagram.C99_replies_partial", "Verif.Datagram.C99_ends", "Verif.Datagram.C99_late_refuted", "Verif.Datagram.C99_many_refuted"], "note": "C99_bound, C99_kept, C99_ends: for all runs. C99_one_partial: one socket, if no attempt is begun while the first socket is being opened. C99_replies_partial: replies go to their calls without time-outs, over any number of sockets. Missing: n first messages at once open n sockets (C99_many_refuted); late replies go to the next call (C99_late_refuted, as C44_datagram_refuted)."},
  {"property": "C100", "status": "partial", "theorems": ["Verif.Counted.C100_told", "Verif.Counted.C100_totals_partial", "Verif.Counted.C100_status_refuted"], "note": "C100_told: what is handed to the statistics, for all sessions, if application code raises no routing exception with status 0 and handles no requests itself. C100_totals_partial: the totals, under the assumptions of C48_calls_partial. C100_status_refuted: a routing exception with status 0 raised by the application is answered as success and not counted."},
  {"property": "C101", "status": "partial", "theorems": ["Verif.Grammar.C101_text", "Verif.Grammar.C101_exactly", "Verif.Grammar.C101_unambiguous", "Verif.Grammar.C101_key", "Verif.Grammar.C101_request", "Verif.Grammar.C101_same", "Verif.Grammar.C101_refused", "Verif.Grammar.C101_keyless", "Verif.Grammar.C101_documented_refuted"], "note": "C101_exactly (with C101_text, C101_unambiguous): the reader takes exactly the texts of the grammar of RFC 8259 (whole numbers of at most 4300 digits; floats through the float library), and beyond it NaN, Infinity, -Infinity and repeated names, the last of which counts. C101_request, C101_key, C101_same: requests. C101_refused: every other text is answered with a failure and changes nothing. Texts with unpaired surrogates, which Python reads, count as unreadable in the model; pydantic's own checks on UUID texts are taken to accept what uuid.UUID accepts in the form with hyphens. C101_keyless: an object without span_key is refused with status 300 and has no effect. C101_documented_refuted: that is what happens to the netcat requests of documentation/statistics_keeper.md, which have a uid and no span_key."},
  {"property": "C102", "status": "partial", "theorems": ["Verif.Startup.C102_order", "Verif.Startup.C102_before_partial", "Verif.Startup.C102_leftover_refuted", "Verif.Startup.C102_late_refuted", "Verif.Startup.C102_failure", "Verif.Startup.C102_reason", "Verif.Startup.C102_setup", "Verif.Startup.C102_cancelled"], "note": "C102_order, C102_failure (three turns of the loop), C102_reason, C102_cancelled in full. C102_before_partial: requests from outside, tasks created before setup_tasks suspends. C102_leftover_refuted: a request kept by a buffered endpoint from an earlier run is handled before the application's tasks begin. C102_late_refuted: tasks created after setup_tasks has waited. Signals: C74, C75."},
  {"property": "C103", "status": "partial", "theorems": ["Verif.Args.C103_understood", "Verif.Args.C103_said", "Verif.Args.C103_exit", "Verif.Args.C103_unknown", "Verif.Args.C103_value_missing", "Verif.Args.C103_help", "Verif.Args.C103_help_exit", "Verif.Args.C103_parsers", "Verif.Args.C103_bem", "Verif.Args.C103_bsm", "Verif.Args.C103_bem_understood", "Verif.Args.C103_bsm_understood", "Verif.Args.C103_stat", "Verif.Args.C103_log", "Verif.Args.C103_options", "Verif.Args.C103_abbreviated_refuted", "Verif.Args.C103_rid_refuted", "Verif.Args.C103_dash_value_refuted"], "note": "C103_understood, C103_said, C103_exit, C103_unknown, C103_value_missing, C103_help for every parser of this kind; C103_bem, C103_bsm, C103_stat, C103_log join them to the tools of C59, C70 and C88. C103_abbreviated_refuted: options that are not documented are accepted if they are short for one (bem -c deletes all errors). C103_rid_refuted: the documented -rid does not exist. C103_dash_value_refuted: a value that begins with a dash is refused behind its option."},
  {"property": "C104", "status": "partial", "theorems": ["Verif.Queue.C104_memory", "Verif.Queue.C104_push", "Verif.Queue.C104_pop", "Verif.Queue.C104_others", "Verif.Queue.C104_memory_only", "Verif.Queue.C104_memory_only_refuted", "Verif.Queue.C104_layout", "Verif.Queue.C104_full_pages", "Verif.Queue.C104_open", "Verif.Queue.C104_layout_refuted"], "note": "C104_memory, C104_push, C104_pop, C104_others for every reachable queue; C104_memory_only, C104_layout, C104_full_pages for new queues and C104_open for any file. C104_memory_only_refuted: two pages of room are not enough to leave the file untouched. C104_layout_refuted: the size alone does not tell where the messages are, as the documentation's example says."},
  {"property": "C105", "status": "partial", "theorems": ["Verif.Place.C105_not_set_partial", "Verif.Place.C105_missing", "Verif.Place.C105_set", "Verif.Place.C105_unbuffered", "Verif.Place.C105_none_refuted"], "note": "C105_not_set_partial under the assumption that the working directory has no subdirectory None; C105_none_refuted: with such a subdirectory the application starts and puts its databases there. C105_missing, C105_set, C105_unbuffered for the other cases. Opening a database is modelled as: the directory must exist."},
  {"property": "C106", "status": "partial", "theorems": ["Verif.Place.C106_saved_partial", "Verif.Place.C106_busy_refuted", "Verif.Place.C106_failed_refuted", "Verif.Place.C106_not_started"], "note": "C106_saved_partial for applications with no busy worker when the tasks are cancelled; C106_busy_refuted: otherwise a signal in that moment gives status 0 with a queue not saved. C106_failed_refuted: an exception that ends a started application leaves no trace in the exit status. C106_not_started: status 1."},
  {"property": "C107", "status": "partial", "theorems": ["Verif.Long.C107_short", "Verif.Long.C107_until", "Verif.Long.C107_transient", "Verif.Long.C107_whole_partial", "Verif.Long.C107_shift_refuted"], "note": "C107_short, C107_until and C107_transient hold for every way of arriving. C107_whole_partial for responses that have arrived completely when they are read. C107_shift_refuted: a long response that arrives in pieces leaves its rest in a persistent connection; the next request gets that rest, and all later ones get the response to the request before."},
  {"property": "C108", "status": "partial", "theorems": ["Verif.Gather.C108_order", "Verif.Gather.C108_times", "Verif.Gather.C108_distance", "Verif.Gather.C108_goes_on", "Verif.Gather.C108_gives_way", "Verif.Gather.C108_zero_refuted", "Verif.Gather.C108_zero_accepted_refuted"], "note": "C108_order, C108_times, C108_distance and C108_goes_on for every period from zero up, C108_gives_way for periods above zero. C108_zero_refuted: with a period of zero or below the loop never suspends, and the rest of the application never runs; C108_zero_accepted_refuted: the configuration accepts such a period."},
  {"property": "C109", "status": "partial", "theorems": ["Verif.Serve.C109_connections_partial", "Verif.Serve.C109_order", "Verif.Serve.C109_nested", "Verif.Serve.C109_datagram_refuted", "Verif.Serve.C109_self_refuted"], "note": "C109_connections_partial, C109_order and C109_nested for servers of connections (TCP, UDS). C109_datagram_refuted: the UDP server holds its lock while an endpoint runs, so a datagram is answered only after all that arrived before it. C109_self_refuted: an endpoint asked by datagram that asks its own application by datagram waits for itself."},
  {"property": "C110", "status": "partial", "theorems": ["Verif.Size.C110_fits_partial", "Verif.Size.C110_request_refuted", "Verif.Size.C110_response_refuted"], "note": "C110_fits_partial for what fits. C110_request_refuted: a request that does not fit ends in max_retries time-outs and CommunicationsMaxRetriesReached. C110_response_refuted: a response that does not fit makes the endpoint run max_retries times per call, times max(1, max_retries) of a buffered sender."},
  {"property": "C111", "status": "partial", "theorems": ["Verif.Listen.C111_ports_partial", "Verif.Listen.C111_taken_refuted", "Verif.Listen.C111_left", "Verif.Listen.C111_stopped"], "note": "C111_ports_partial for TCP and UDP, C111_left and C111_stopped for what remains after a stop. C111_taken_refuted: a second application that starts on a socket file takes it over, and the first goes on without being reachable."},
  {"property": "C112", "status": "partial", "theorems": ["Verif.Listen.C112_datagram_partial", "Verif.Listen.C112_hidden_refuted", "Verif.Listen.C112_listens", "Verif.Listen.C112_stop"], "note": "C112_datagram_partial for UDP, C112_listens exactly when a server listens, C112_stop what stop does after a failed and after a successful start. C112_hidden_refuted: TCP and UDS servers raise AttributeError in place of the system's error."},
  {"property": "C113", "status": "proved", "theorems": ["Verif.Stream.C113_acted", "Verif.Stream.C113_long", "Verif.Stream.C113_alone", "Verif.Stream.C113_stopped"], "note": "C113_acted for every byte stream and every run; C113_long and C113_alone for lines longer than the limit; C113_stopped for connections accepted after the server was stopped. A connection that is reset while its reply is written has acted on the request."},
  {"property": "C114", "status": "partial", "theorems": ["Verif.Batches.C114_isolated", "Verif.Batches.C114_once", "Verif.Batches.C114_all", "Verif.Batches.C114_small_partial", "Verif.Batches.C114_stuck_refuted"], "note": "C114_isolated, C114_once and C114_all hold in full; C114_small_partial: batches that the collector can take. C114_stuck_refuted: a batch is never divided, so that a file with more lines than the collector takes at once is never delivered, nor is anything written to it later."},
  {"property": "C115", "status": "partial", "theorems": ["Verif.Over.C115_unseen", "Verif.Over.C115_unanswered", "Verif.Over.C115_failed", "Verif.Over.C115_once_partial", "Verif.Over.C115_again_refuted"], "note": "C115_unseen, C115_unanswered and C115_failed hold in full. C115_once_partial: a transient client that finds the connection ended gives up at once. C115_again_refuted: persistent clients, and transient ones whose connection is reset, send the request max_retries times and report an error that buffered senders take for worth another try."},
  {"property": "C116", "status": "partial", "theorems": ["Verif.Poll.C116_every", "Verif.Poll.C116_gap", "Verif.Poll.C116_detected", "Verif.Poll.C116_period_partial", "Verif.Poll.C116_period_refuted", "Verif.Poll.C116_udp"], "note": "C116_every, C116_gap and C116_detected hold in full, for durations within bounds. C116_period_partial: a push per gather period if nothing takes time. C116_period_refuted: services are polled one after the other and the sleep comes on top, so that one silent service delays the reports on all, in every round. C116_udp: the bounds in seconds for services polled by UDP, from C117."},
  {"property": "C117", "status": "partial", "theorems": ["Verif.Wait.C117_ends_partial", "Verif.Wait.C117_alone", "Verif.Wait.C117_goes_on", "Verif.Wait.C117_others_refuted", "Verif.Wait.C117_transient_partial", "Verif.Wait.C117_connect_refuted"], "note": "C117_alone: the full bound for datagram clients, and persistent clients that are connected, when sends do not overlap. C117_goes_on: no standstill, in full. C117_ends_partial: with up to n sends (and heartbeats) at a time, max_retries times n time-outs and the delays. C117_others_refuted: the bound without n is false, since the time-out begins when the lock has been taken. C117_transient_partial: transient stream clients, given bounds for connecting and closing. C117_connect_refuted: connecting has no time-out."}
]}
