# Axioms each theorem depends on

Generated from `#print axioms` for every theorem named in MANIFEST.json.

| theorem | axioms |
|---|---|
| `Verif.Queue.C01_content` | Classical.choice, Quot.sound, propext |
| `Verif.Queue.C01_fifo` | Classical.choice, Quot.sound, propext |
| `Verif.Queue.C01_pop_order` | Classical.choice, Quot.sound, propext |
| `Verif.Queue.C01_drain` | Classical.choice, Quot.sound, propext |
| `Verif.Queue.C02_push` | Classical.choice, Quot.sound, propext |
| `Verif.Queue.C02_unique_keys` | Classical.choice, Quot.sound, propext |
| `Verif.Queue.C03_size` | Classical.choice, Quot.sound, propext |
| `Verif.Queue.C04_inspect` | Classical.choice, Quot.sound, propext |
| `Verif.Queue.C05_pop_key` | Classical.choice, Quot.sound, propext |
| `Verif.Queue.C06_restart` | Classical.choice, Quot.sound, propext |
| `Verif.Queue.C07_restart_order` | Classical.choice, Quot.sound, propext |
| `Verif.Queue.C07_order_partial` | Classical.choice, Quot.sound, propext |
| `Verif.Queue.C07_order_refuted` | Classical.choice, Quot.sound, propext |
| `Verif.Queue.C08_crash_between_calls` | Classical.choice, Quot.sound, propext |
| `Verif.Queue.C08_crash_in_call` | Classical.choice, Quot.sound, propext |
| `Verif.Queue.C08_crash_in_shut_down` | Classical.choice, Quot.sound, propext |
| `Verif.Queue.C08_crash_in_open` | Classical.choice, Quot.sound, propext |
| `Verif.Queue.C08_bound_is_tight` | Quot.sound, propext |
| `Verif.Queue.C09_clear` | Classical.choice, Quot.sound, propext |
| `Verif.Queue.C10_listed_partial` | Classical.choice, Quot.sound, propext |
| `Verif.Queue.C10_pushed_partial` | Classical.choice, Quot.sound, propext |
| `Verif.Queue.C10_first_keys_partial` | Classical.choice, Quot.sound, propext |
| `Verif.Queue.C10_after_open_partial` | Classical.choice, Quot.sound, propext |
| `Verif.Queue.C10_first_keys_refuted` | Classical.choice, Quot.sound, propext |
| `Verif.Queue.C11_pop_none_partial` | Classical.choice, Quot.sound, propext |
| `Verif.Queue.C11_pop_none_refuted` | Quot.sound, propext |
| `Verif.Queue.C11_forever_refuted` | Quot.sound, propext |
| `Verif.Queue.C12_second_shut_down_partial` | Classical.choice, Quot.sound, propext |
| `Verif.Queue.C12_two_pages` | Classical.choice, Quot.sound, propext |
| `Verif.Queue.C12_second_shut_down_refuted` | Classical.choice, Quot.sound, propext |
| `Verif.Pending.C13_content` | Classical.choice, Quot.sound, propext |
| `Verif.Pending.C13_reprocess_all_partial` | Classical.choice, Quot.sound, propext |
| `Verif.Pending.C13_reprocess_all_any_partial` | Classical.choice, Quot.sound, propext |
| `Verif.Pending.C13_reprocess_all_refuted` | Quot.sound, propext |
| `Verif.Pending.C14_reprocess_one_partial` | Classical.choice, Quot.sound, propext |
| `Verif.Pending.C14_reprocess_one_refuted` | Quot.sound, propext |
| `Verif.Pending.C15_operator_calls_partial` | Classical.choice, Quot.sound, propext |
| `Verif.Pending.C15_pop_removes` | Classical.choice, Quot.sound, propext |
| `Verif.Pending.C15_operator_calls_refuted` | Quot.sound, propext |
| `Verif.Buffered.C16_content` | Classical.choice, Quot.sound, propext |
| `Verif.Buffered.C16_attempts_bounded` | Classical.choice, Quot.sound, propext |
| `Verif.Buffered.C16_failed_after_all_attempts` | Classical.choice, Quot.sound, propext |
| `Verif.Buffered.C16_success_is_final` | Classical.choice, Quot.sound, propext |
| `Verif.Buffered.C16_failure_result` | Classical.choice, Quot.sound, propext |
| `Verif.Buffered.C16_all_fail` | Classical.choice, Quot.sound, propext |
| `Verif.Buffered.C17_accounted_partial` | Classical.choice, Quot.sound, propext |
| `Verif.Buffered.C17_exactly_one_place_partial` | Classical.choice, Quot.sound, propext |
| `Verif.Buffered.C17_never_lost_partial` | Classical.choice, Quot.sound, propext |
| `Verif.Buffered.C17_never_lost_refuted` | Quot.sound, propext |
| `Verif.Buffered.C18_awake_partial` | Classical.choice, Quot.sound, propext |
| `Verif.Buffered.C18_woken_partial` | Classical.choice, Quot.sound, propext |
| `Verif.Buffered.C18_worker_takes` | Classical.choice, Quot.sound, propext |
| `Verif.Buffered.C18_awake_refuted` | Quot.sound, propext |
| `Verif.Buffered.C19_awake_partial` | Classical.choice, Quot.sound, propext |
| `Verif.Buffered.C19_awake_refuted` | Quot.sound, propext |
| `Verif.Buffered.C19_worker_takes` | Classical.choice, Quot.sound, propext |
| `Verif.Buffered.C20_commands_endpoint` | Quot.sound, propext |
| `Verif.Buffered.C20_commands_sender` | Quot.sound, propext |
| `Verif.Buffered.C20_paused_endpoint_partial` | Classical.choice, Quot.sound, propext |
| `Verif.Buffered.C20_still_accepted` | Classical.choice, Quot.sound, propext |
| `Verif.Buffered.C20_paused_sender_partial` | Classical.choice, Quot.sound, propext |
| `Verif.Buffered.C20_paused_refuted` | Quot.sound, propext |
| `Verif.Pace.C20_waiting_sender_partial` | Classical.choice, Quot.sound, propext |
| `Verif.Pace.C20_waiting_refuted` | Classical.choice, Quot.sound, propext |
| `Verif.Client.C21_unchanged_partial` | Quot.sound, propext |
| `Verif.Client.C21_busy_refuted` | propext |
| `Verif.Client.C21_retry_partial` | propext |
| `Verif.Buffered.C22_one_at_a_time_endpoint` | Classical.choice, Quot.sound, propext |
| `Verif.Buffered.C22_one_at_a_time_sender` | Classical.choice, Quot.sound, propext |
| `Verif.Buffered.C22_order_endpoint` | Classical.choice, Quot.sound, propext |
| `Verif.Buffered.C22_order_sender` | Classical.choice, Quot.sound, propext |
| `Verif.Buffered.C23_carried` | Classical.choice, Quot.sound, propext |
| `Verif.Buffered.C23_exact` | Classical.choice, Quot.sound, propext |
| `Verif.Buffered.C23_stored` | Classical.choice, Quot.sound, propext |
| `Verif.Buffered.C24_content` | Classical.choice, Quot.sound, propext |
| `Verif.Buffered.C24_classification` | Classical.choice, Quot.sound, propext |
| `Verif.Buffered.C24_attempts_bounded` | Classical.choice, Quot.sound, propext |
| `Verif.Buffered.C24_success_is_final` | Classical.choice, Quot.sound, propext |
| `Verif.Buffered.C25_accounted_partial` | Classical.choice, Quot.sound, propext |
| `Verif.Buffered.C25_never_lost_partial` | Classical.choice, Quot.sound, propext |
| `Verif.Buffered.C25_never_lost_refuted` | Quot.sound, propext |
| `Verif.Buffered.C26_stop_endpoint_partial` | Classical.choice, Quot.sound, propext |
| `Verif.Buffered.C26_stop_sender_partial` | Classical.choice, Quot.sound, propext |
| `Verif.Buffered.C26_idle_stop_partial` | Classical.choice, Quot.sound, propext |
| `Verif.Buffered.C26_stop_refuted` | Quot.sound, propext |
| `Verif.Lru.C27_lookups_never_wrong_partial` | Quot.sound, propext |
| `Verif.Lru.C27_store_visible` | Quot.sound, propext |
| `Verif.Lru.C27_lookup_keeps` | Quot.sound, propext |
| `Verif.Lru.C27_store_keeps` | Quot.sound, propext |
| `Verif.Lru.C27_store_loses_one` | Classical.choice, Quot.sound, propext |
| `Verif.Lru.C27_removal_exact` | Quot.sound, propext |
| `Verif.Lru.C27_pop_removes` | Quot.sound, propext |
| `Verif.Lru.C27_get_never_raises` | Quot.sound, propext |
| `Verif.Lru.C27_len_counts` | Quot.sound, propext |
| `Verif.Lru.C27_pop_refuted` | propext |
| `Verif.Lru.C28_capacity_partial` | Quot.sound, propext |
| `Verif.Lru.C28_capacity_keeping` | Quot.sound, propext |
| `Verif.Lru.C28_capacity_refuted` | none |
| `Verif.Lru.C29_least_recently_used_partial` | Classical.choice, Quot.sound, propext |
| `Verif.Lru.C29_evicts_last_partial` | Classical.choice, Quot.sound, propext |
| `Verif.Lru.C29_pop_order_partial` | Classical.choice, Quot.sound, propext |
| `Verif.Lru.C29_eviction_refuted` | none |
| `Verif.Lru.C29_small_refuted` | none |
| `Verif.Lru.C30_iteration_partial` | Classical.choice, Quot.sound, propext |
| `Verif.Lru.C30_ideal_keys_once` | Quot.sound, propext |
| `Verif.Lru.C30_iteration_refuted` | none |
| `Verif.Span.C31_text_round_trip` | Classical.choice, Quot.sound, propext |
| `Verif.Span.C31_text_injective` | Classical.choice, Quot.sound, propext |
| `Verif.Span.C32_bytes_round_trip` | Quot.sound, propext |
| `Verif.Span.C32_from_bytes` | Quot.sound, propext |
| `Verif.Span.C32_equality` | Classical.choice, Quot.sound, propext |
| `Verif.Span.C33_span_ids_partial` | Classical.choice, Quot.sound, propext |
| `Verif.Span.C33_accepted_partial` | Classical.choice, Quot.sound, propext |
| `Verif.Span.C33_span_ids_refuted` | Classical.choice, Quot.sound, propext |
| `Verif.Span.C33_from_int` | Classical.choice, Quot.sound, propext |
| `Verif.Span.C33_negative_has_no_bytes` | Quot.sound, propext |
| `Verif.Server.C34_malformed` | propext |
| `Verif.Server.C34_schema_partial` | propext |
| `Verif.Server.C34_status_partial` | Classical.choice, Quot.sound, propext |
| `Verif.Server.C34_answered` | Quot.sound, propext |
| `Verif.Server.C34_not_object` | propext |
| `Verif.Server.C34_schema_refuted` | propext |
| `Verif.Server.C34_unhandled_refuted` | propext |
| `Verif.Server.C35_span_key` | propext |
| `Verif.Server.C36_context` | propext |
| `Verif.Server.C36_unparsed` | propext |
| `Verif.Server.C36_nested` | Quot.sound, propext |
| `Verif.Stream.C37_replies_partial` | Classical.choice, Quot.sound, propext |
| `Verif.Stream.C37_progress` | Classical.choice, Quot.sound, propext |
| `Verif.Stream.C37_chunking` | Classical.choice, Quot.sound, propext |
| `Verif.Stream.C37_prefix` | Classical.choice, Quot.sound, propext |
| `Verif.Stream.C37_framing` | Classical.choice, Quot.sound, propext |
| `Verif.Stream.C37_undecodable_refuted` | Classical.choice, Quot.sound, propext |
| `Verif.Stream.C37_long_refuted` | Classical.choice, Quot.sound, propext |
| `Verif.Stream.C38_ack` | Classical.choice, Quot.sound, propext |
| `Verif.Stream.C38_untouched` | Classical.choice, Quot.sound, propext |
| `Verif.Stream.C38_transparent` | Classical.choice, Quot.sound, propext |
| `Verif.Stream.C38_datagram_refuted` | Classical.choice, Quot.sound, propext |
| `Verif.Server.C39_unknown` | propext |
| `Verif.Server.C39_registered` | Quot.sound, propext |
| `Verif.Server.C40_chain` | Classical.choice, Quot.sound, propext |
| `Verif.Server.C41_arguments` | Classical.choice, Quot.sound, propext |
| `Verif.Server.C41_called` | Classical.choice, Quot.sound, propext |
| `Verif.Server.C41_buffered` | Classical.choice, Quot.sound, propext |
| `Verif.Server.C41_uid` | Classical.choice, Quot.sound, propext |
| `Verif.Client.C42_status_partial` | Quot.sound, propext |
| `Verif.Client.C42_distinct` | Quot.sound, propext |
| `Verif.Client.C42_success` | Quot.sound, propext |
| `Verif.Client.C42_denied_refuted` | propext |
| `Verif.Client.C42_data_refuted` | propext |
| `Verif.Client.C42_malformed_refuted` | propext |
| `Verif.Client.C42_documented_partial` | Classical.choice, Quot.sound, propext |
| `Verif.Client.C43_attempts` | Classical.choice, Quot.sound, propext |
| `Verif.Client.C43_bound` | Quot.sound, propext |
| `Verif.Client.C43_zero_refuted` | Quot.sound, propext |
| `Verif.Client.C43_reconnect_refuted` | Quot.sound, propext |
| `Verif.Client.C44_transient` | Classical.choice, Quot.sound, propext |
| `Verif.Client.C44_persistent_partial` | Quot.sound, propext |
| `Verif.Client.C44_fifo` | Quot.sound, propext |
| `Verif.Client.C44_late_refuted` | propext |
| `Verif.Client.C44_shift_refuted` | propext |
| `Verif.Client.C44_lost_refuted` | propext |
| `Verif.Client.C44_datagram_partial` | Quot.sound, propext |
| `Verif.Client.C44_datagram_refuted` | propext |
| `Verif.Client.C45_alone_partial` | Classical.choice, Quot.sound, propext |
| `Verif.Client.C45_datagram` | Classical.choice, Quot.sound, propext |
| `Verif.Client.C45_disturbed_refuted` | propext |
| `Verif.Errors.C46_count_partial` | Quot.sound, propext |
| `Verif.Errors.C46_bounds_partial` | Classical.choice, Quot.sound, propext |
| `Verif.Errors.C46_listed` | Classical.choice, Quot.sound, propext |
| `Verif.Errors.C46_described_partial` | Quot.sound, propext |
| `Verif.Errors.C46_clearing_partial` | Quot.sound, propext |
| `Verif.Errors.C46_case` | Quot.sound, propext |
| `Verif.Errors.C46_negative_refuted` | Quot.sound, propext |
| `Verif.Stats.C47_set` | Classical.choice, Quot.sound, propext |
| `Verif.Stats.C47_defined` | Classical.choice, Quot.sound, propext |
| `Verif.Stats.C47_increment` | Classical.choice, Quot.sound, propext |
| `Verif.Stats.C47_increment_again` | Classical.choice, Quot.sound, propext |
| `Verif.Stats.C47_reserved_refuted` | Classical.choice, Quot.sound, propext |
| `Verif.Stats.C48_never_raises` | Classical.choice, Quot.sound, propext |
| `Verif.Stats.C48_calls_partial` | Classical.choice, Quot.sound, propext |
| `Verif.Stats.C48_counted_partial` | Classical.choice, Quot.sound, propext |
| `Verif.Stats.C48_listed_partial` | Classical.choice, Quot.sound, propext |
| `Verif.Stats.C48_clash_refuted` | Classical.choice, Quot.sound, propext |
| `Verif.Stats.C48_percentiles_partial` | Classical.choice, Quot.sound, propext |
| `Verif.Stats.C48_gather_partial` | Classical.choice, Quot.sound, propext |
| `Verif.Stats.C49_history_partial` | Classical.choice, Quot.sound, propext |
| `Verif.Stats.C49_newest` | Classical.choice, Quot.sound, propext |
| `Verif.Stats.C49_lowered_refuted` | Classical.choice, Quot.sound, propext |
| `Verif.Stats.C50_order` | Classical.choice, Quot.sound, propext |
| `Verif.Stats.C50_low` | Classical.choice, Quot.sound, propext |
| `Verif.Stats.C50_cover` | Classical.choice, Quot.sound, propext |
| `Verif.Stats.C50_high_partial` | Classical.choice, Quot.sound, propext |
| `Verif.Stats.C50_none` | Classical.choice, Quot.sound, propext |
| `Verif.Stats.C50_high_refuted` | Classical.choice, Quot.sound, propext |
| `Verif.Config.C51_precedence` | Classical.choice, Quot.sound, propext |
| `Verif.Config.C51_instance_only` | Classical.choice, Quot.sound, propext |
| `Verif.Config.C51_fields` | Classical.choice, Quot.sound, propext |
| `Verif.Config.C51_success` | Classical.choice, Quot.sound, propext |
| `Verif.Config.C51_defaults` | Classical.choice, Quot.sound, propext |
| `Verif.Config.C51_separate` | Classical.choice, Quot.sound, propext |
| `Verif.Config.C51_isolated_partial` | Classical.choice, Quot.sound, propext |
| `Verif.Config.C51_isolated_refuted` | Classical.choice, Quot.sound, propext |
| `Verif.Config.C51_level_refuted` | Classical.choice, Quot.sound, propext |
| `Verif.Config.C51_host_port` | Classical.choice, Quot.sound, propext |
| `Verif.Config.C51_bad_address` | Classical.choice, Quot.sound, propext |
| `Verif.Config.C51_servers` | Classical.choice, Quot.sound, propext |
| `Verif.Config.C52_precedence` | Classical.choice, Quot.sound, propext |
| `Verif.Config.C52_others_partial` | Classical.choice, Quot.sound, propext |
| `Verif.Config.C52_others_refuted` | Classical.choice, Quot.sound, propext |
| `Verif.Lock.C53_serial_partial` | Classical.choice, Quot.sound, propext |
| `Verif.Lock.C53_lock_names` | Classical.choice, Quot.sound, propext |
| `Verif.Lock.C53_refused` | Classical.choice, Quot.sound, propext |
| `Verif.Lock.C53_race_refuted` | propext |
| `Verif.Lock.C53_user_refuted` | propext |
| `Verif.Logs.C54_in_order` | Quot.sound, propext |
| `Verif.Logs.C54_flushed` | Quot.sound, propext |
| `Verif.Logs.C54_console` | Quot.sound, propext |
| `Verif.Logs.C54_bound_partial` | Quot.sound, propext |
| `Verif.Logs.C54_bound_logged` | Quot.sound, propext |
| `Verif.Logs.C54_lowered_refuted` | Classical.choice, Quot.sound, propext |
| `Verif.Logs.C55_immediate_partial` | Quot.sound, propext |
| `Verif.Logs.C55_writer_partial` | Quot.sound, propext |
| `Verif.Logs.C55_buffered_refuted` | Classical.choice, Quot.sound, propext |
| `Verif.Shipper.C56_prefix` | Classical.choice, Quot.sound, propext |
| `Verif.Shipper.C56_all` | Classical.choice, Quot.sound, propext |
| `Verif.Shipper.C56_rotated_names` | Classical.choice, Quot.sound, propext |
| `Verif.Shipper.C56_two_rotations_refuted` | Classical.choice, Quot.sound, propext |
| `Verif.Shipper.C56_unanswered_refuted` | Classical.choice, Quot.sound, propext |
| `Verif.Shipper.C56_malformed_refuted` | Classical.choice, Quot.sound, propext |
| `Verif.Shipper.C57_at_least_once_partial` | Classical.choice, Quot.sound, propext |
| `Verif.Shipper.C57_one_file` | Classical.choice, Quot.sound, propext |
| `Verif.Shipper.C57_rotated_while_down_refuted` | Classical.choice, Quot.sound, propext |
| `Verif.Shipper.C57_killed_in_outage_refuted` | Classical.choice, Quot.sound, propext |
| `Verif.Shipper.C57_inode_reused_refuted` | Classical.choice, Quot.sound, propext |
| `Verif.Shipper.C57_rotated_while_opening_refuted` | Classical.choice, Quot.sound, propext |
| `Verif.Shipper.C57_renamed_while_polling_refuted` | Classical.choice, Quot.sound, propext |
| `Verif.Prom.C58_exact` | Classical.choice, Quot.sound, propext |
| `Verif.Prom.C58_calls_partial` | Classical.choice, Quot.sound, propext |
| `Verif.Prom.C58_default_partial` | Classical.choice, Quot.sound, propext |
| `Verif.Prom.C58_custom` | Classical.choice, Quot.sound, propext |
| `Verif.Prom.C58_custom_only` | Classical.choice, Quot.sound, propext |
| `Verif.Prom.C58_custom_collision_refuted` | Classical.choice, Quot.sound, propext |
| `Verif.Prom.C58_one_part_refuted` | Classical.choice, Quot.sound, propext |
| `Verif.Prom.C58_three_parts_refuted` | Classical.choice, Quot.sound, propext |
| `Verif.Prom.C58_clash_refuted` | Classical.choice, Quot.sound, propext |
| `Verif.Cli.C59_endpoint` | Classical.choice, Quot.sound, propext |
| `Verif.Cli.C59_unknown_queue` | Classical.choice, Quot.sound, propext |
| `Verif.Cli.C59_needs_key` | Quot.sound, propext |
| `Verif.Cli.C59_needs_key_exit` | Classical.choice, Quot.sound, propext |
| `Verif.Cli.C59_exclusive` | Classical.choice, Quot.sound, propext |
| `Verif.Cli.C59_listed` | Classical.choice, Quot.sound, propext |
| `Verif.Cli.C59_listed_restart_partial` | Classical.choice, Quot.sound, propext |
| `Verif.Cli.C59_bsm_refuted` | Classical.choice, Quot.sound, propext |
| `Verif.Cli.C59_sender_partial` | Classical.choice, Quot.sound, propext |
| `Verif.Cli.C59_address_refuted` | Classical.choice, Quot.sound, propext |
| `Verif.Cli.C59_unknown_server` | propext |
| `Verif.Cli.C59_needs_queue` | Classical.choice, Quot.sound, propext |
| `Verif.Wire.C60_data` | Classical.choice, Quot.sound, propext |
| `Verif.Wire.C60_injective` | Classical.choice, Quot.sound, propext |
| `Verif.Wire.C60_line` | Classical.choice, Quot.sound, propext |
| `Verif.Wire.C60_framing` | Classical.choice, Quot.sound, propext |
| `Verif.Wire.C60_request` | Classical.choice, Quot.sound, propext |
| `Verif.Wire.C60_response` | Classical.choice, Quot.sound, propext |
| `Verif.Wire.C60_call` | Classical.choice, Quot.sound, propext |
| `Verif.Wire.C60_cut` | Classical.choice, Quot.sound, propext |
| `Verif.Wire.C60_white` | Classical.choice, Quot.sound, propext |
| `Verif.Wire.C60_trailing` | Classical.choice, Quot.sound, propext |
| `Verif.Wire.C60_nonfinite_refuted` | Classical.choice, Quot.sound, propext |
| `Verif.Wire.C60_digits_refuted` | Classical.choice, Quot.sound, propext |
| `Verif.Wire.C60_long_refuted` | Classical.choice, Quot.sound, propext |
| `Verif.Stream.C61_datagrams` | Classical.choice, Quot.sound, propext |
| `Verif.Stream.C61_each` | propext |
| `Verif.Stream.C61_progress` | Classical.choice, Quot.sound, propext |
| `Verif.Config.C62_file_wins` | Classical.choice, Quot.sound, propext |
| `Verif.Config.C62_rest_partial` | Classical.choice, Quot.sound, propext |
| `Verif.Config.C62_missing_fields` | Classical.choice, Quot.sound, propext |
| `Verif.Config.C62_host_refuted` | Classical.choice, Quot.sound, propext |
| `Verif.Config.C62_malformed_refuted` | Classical.choice, Quot.sound, propext |
| `Verif.Config.C62_instances` | Classical.choice, Quot.sound, propext |
| `Verif.Config.C64_plain` | Classical.choice, Quot.sound, propext |
| `Verif.Config.C64_camel` | Classical.choice, Quot.sound, propext |
| `Verif.Config.C64_shape` | Quot.sound, propext |
| `Verif.Config.C64_unique_refuted` | Classical.choice, Quot.sound, propext |
| `Verif.Config.C64_extension_refuted` | Classical.choice, Quot.sound, propext |
| `Verif.Config.C65_buffers` | Classical.choice, Quot.sound, propext |
| `Verif.Config.C65_names` | Classical.choice, Quot.sound, propext |
| `Verif.Config.C65_instances_partial` | Classical.choice, Quot.sound, propext |
| `Verif.Config.C65_lock_refuted` | Classical.choice, Quot.sound, propext |
| `Verif.Config.C65_socket_refuted` | Classical.choice, Quot.sound, propext |
| `Verif.Config.C65_buffer_refuted` | Classical.choice, Quot.sound, propext |
| `Verif.Config.C65_databases_partial` | Classical.choice, Quot.sound, propext |
| `Verif.Config.C65_question_refuted` | Classical.choice, Quot.sound, propext |
| `Verif.Lock.C66_start_partial` | Classical.choice, Quot.sound, propext |
| `Verif.Lock.C66_same_pid_refuted` | Quot.sound, propext |
| `Verif.Lock.C66_reused_pid_refuted` | propext |
| `Verif.Lock.C66_reused_pid_gone` | Classical.choice, Quot.sound, propext |
| `Verif.Lock.C66_empty_refuted` | Quot.sound, propext |
| `Verif.Logs.C63_ignored_refuted` | none |
| `Verif.Logs.C63_configured_refuted` | Classical.choice, Quot.sound, propext |
| `Verif.Logs.C63_set_partial` | Quot.sound, propext |
| `Verif.Logs.C67_newest_kept` | Quot.sound, propext |
| `Verif.Logs.C67_size_partial` | Quot.sound, propext |
| `Verif.Logs.C67_unicode_refuted` | Classical.choice, Quot.sound, propext |
| `Verif.Logs.C67_no_files_refuted` | Quot.sound, propext |
| `Verif.Scrape.C68_found` | Classical.choice, Quot.sound, propext |
| `Verif.Scrape.C68_names_partial` | Classical.choice, Quot.sound, propext |
| `Verif.Scrape.C68_local` | Classical.choice, Quot.sound, propext |
| `Verif.Scrape.C68_uds_partial` | Classical.choice, Quot.sound, propext |
| `Verif.Scrape.C68_default_socket_refuted` | Classical.choice, Quot.sound, propext |
| `Verif.Scrape.C68_names_refuted` | Classical.choice, Quot.sound, propext |
| `Verif.Scrape.C68_phantom_refuted` | Classical.choice, Quot.sound, propext |
| `Verif.Scrape.C68_file_refuted` | Classical.choice, Quot.sound, propext |
| `Verif.Scrape.C69_health_partial` | Classical.choice, Quot.sound, propext |
| `Verif.Scrape.C69_twice_refuted` | Classical.choice, Quot.sound, propext |
| `Verif.Scrape.C69_clash_refuted` | Classical.choice, Quot.sound, propext |
| `Verif.Scrape.C69_renamed_refuted` | Classical.choice, Quot.sound, propext |
| `Verif.Cli.C70_stat_partial` | Classical.choice, Quot.sound, propext |
| `Verif.Cli.C70_usage` | propext |
| `Verif.Cli.C70_gathered_refuted` | Classical.choice, Quot.sound, propext |
| `Verif.Traces.C71_once` | Classical.choice, Quot.sound, propext |
| `Verif.Traces.C71_source` | Classical.choice, Quot.sound, propext |
| `Verif.Traces.C71_running_partial` | Classical.choice, Quot.sound, propext |
| `Verif.Traces.C71_request_partial` | Classical.choice, Quot.sound, propext |
| `Verif.Traces.C71_failed_lost` | Classical.choice, Quot.sound, propext |
| `Verif.Traces.C71_failed_refuted` | Classical.choice, Quot.sound, propext |
| `Verif.Traces.C71_leak_refuted` | Classical.choice, Quot.sound, propext |
| `Verif.Traces.C71_same_key_refuted` | Classical.choice, Quot.sound, propext |
| `Verif.Traces.C71_zero_refuted` | Classical.choice, Quot.sound, propext |
| `Verif.Traces.C72_child_partial` | Classical.choice, Quot.sound, propext |
| `Verif.Traces.C72_stored` | Classical.choice, Quot.sound, propext |
| `Verif.Traces.C72_result_partial` | Classical.choice, Quot.sound, propext |
| `Verif.Traces.C72_crash_lost` | Classical.choice, Quot.sound, propext |
| `Verif.Traces.C72_crash_refuted` | Classical.choice, Quot.sound, propext |
| `Verif.Traces.C72_same_key_refuted` | Classical.choice, Quot.sound, propext |
| `Verif.Envelope.C73_time` | Classical.choice, Quot.sound, propext |
| `Verif.Envelope.C73_lines` | Classical.choice, Quot.sound, propext |
| `Verif.Envelope.C73_batch_partial` | Classical.choice, Quot.sound, propext |
| `Verif.Envelope.C73_file_partial` | Classical.choice, Quot.sound, propext |
| `Verif.Envelope.C73_mixed_partial` | Classical.choice, Quot.sound, propext |
| `Verif.Envelope.C73_attributes` | Classical.choice, Quot.sound, propext |
| `Verif.Envelope.C73_attributes_refuted` | Classical.choice, Quot.sound, propext |
| `Verif.Envelope.C73_resource_refuted` | Classical.choice, Quot.sound, propext |
| `Verif.Envelope.C73_time_refuted` | Classical.choice, Quot.sound, propext |
| `Verif.Envelope.C73_all_or_nothing` | Classical.choice, Quot.sound, propext |
| `Verif.Life.C74_saved_partial` | Classical.choice, Quot.sound, propext |
| `Verif.Life.C74_started` | Classical.choice, Quot.sound, propext |
| `Verif.Life.C74_kept_partial` | Classical.choice, Quot.sound, propext |
| `Verif.Life.C74_half_started_refuted` | Classical.choice, Quot.sound, propext |
| `Verif.Life.C74_not_started_refuted` | propext |
| `Verif.Life.C74_interrupted_refuted` | none |
| `Verif.Life.C74_servers_stopped` | propext |
| `Verif.Life.C75_exact` | propext |
| `Verif.Life.C75_waiting_partial` | none |
| `Verif.Life.C75_busy_refuted` | propext |
| `Verif.Life.C75_stop_before_start` | propext |
| `Verif.Life.C75_stop_refuted` | Quot.sound, propext |
| `Verif.Delivery.C76_sent_partial` | Classical.choice, Quot.sound, propext |
| `Verif.Delivery.C76_payload_partial` | Classical.choice, Quot.sound, propext |
| `Verif.Delivery.C76_accounted_partial` | Classical.choice, Quot.sound, propext |
| `Verif.Delivery.C76_persistent_refuted` | Quot.sound, propext |
| `Verif.Delivery.C76_datagram_refuted` | Quot.sound, propext |
| `Verif.Delivery.C77_accepted_once_partial` | Classical.choice, Quot.sound, propext |
| `Verif.Delivery.C77_processed_once_partial` | Classical.choice, Quot.sound, propext |
| `Verif.Delivery.C77_twice_refuted` | Quot.sound, propext |
| `Verif.Tasks.C78_lines_partial` | Classical.choice, Quot.sound, propext |
| `Verif.Tasks.C78_complete_partial` | Classical.choice, Quot.sound, propext |
| `Verif.Tasks.C78_own_key_partial` | Classical.choice, Quot.sound, propext |
| `Verif.Tasks.C78_sender_refuted` | Quot.sound, propext |
| `Verif.Tasks.C79_order` | Quot.sound, propext |
| `Verif.Tasks.C79_kept` | Quot.sound, propext |
| `Verif.Tasks.C79_no_leak` | Classical.choice, Quot.sound, propext |
| `Verif.Chain.C80_chain_partial` | Classical.choice, Quot.sound, propext |
| `Verif.Chain.C80_apart_partial` | Classical.choice, Quot.sound, propext |
| `Verif.Chain.C80_sent` | Quot.sound, propext |
| `Verif.Chain.C80_no_key` | Classical.choice, Quot.sound, propext |
| `Verif.Chain.C80_not_taken` | Classical.choice, Quot.sound, propext |
| `Verif.Chain.C80_positional_refuted` | Classical.choice, Quot.sound, propext |
| `Verif.Chain.C80_merged_refuted` | Classical.choice, Quot.sound, propext |
| `Verif.Wiring.C81_exact` | Classical.choice, Quot.sound, propext |
| `Verif.Wiring.C81_opened_partial` | Classical.choice, Quot.sound, propext |
| `Verif.Wiring.C81_raises` | Classical.choice, Quot.sound, propext |
| `Verif.Wiring.C81_managed` | Classical.choice, Quot.sound, propext |
| `Verif.Wiring.C81_same_route_refuted` | Classical.choice, Quot.sound, propext |
| `Verif.Wiring.C81_late_refuted` | Classical.choice, Quot.sound, propext |
| `Verif.Wiring.C81_singleton` | Quot.sound, propext |
| `Verif.Buffered.C82_bounded_sender` | Classical.choice, Quot.sound, propext |
| `Verif.Buffered.C82_bounded_endpoint` | Classical.choice, Quot.sound, propext |
| `Verif.Buffered.C82_sender_partial` | Classical.choice, Quot.sound, propext |
| `Verif.Buffered.C82_endpoint_partial` | Classical.choice, Quot.sound, propext |
| `Verif.Buffered.C82_late_push_refuted` | Quot.sound, propext |
| `Verif.Hooks.C83_push` | Quot.sound, propext |
| `Verif.Hooks.C83_queued` | propext |
| `Verif.Hooks.C83_merged_partial` | Quot.sound, propext |
| `Verif.Hooks.C83_order` | Quot.sound, propext |
| `Verif.Hooks.C83_retries` | Quot.sound, propext |
| `Verif.Hooks.C83_reprocess` | Quot.sound, propext |
| `Verif.Hooks.C83_unchanged_partial` | Quot.sound, propext |
| `Verif.Hooks.C83_life_partial` | Quot.sound, propext |
| `Verif.Hooks.C83_stored` | Quot.sound, propext |
| `Verif.Hooks.C83_stored_once` | Quot.sound, propext |
| `Verif.Hooks.C83_tuple_refuted` | propext |
| `Verif.Hooks.C83_object_refuted` | Quot.sound, propext |
| `Verif.Hooks.C83_in_place_refuted` | propext |
| `Verif.Hooks.C83_after_refuted` | Quot.sound, propext |
| `Verif.Cli.C84_asked` | Classical.choice, Quot.sound, propext |
| `Verif.Cli.C84_level` | Classical.choice, Quot.sound, propext |
| `Verif.Cli.C84_size_partial` | Classical.choice, Quot.sound, propext |
| `Verif.Cli.C84_both_refuted` | Classical.choice, Quot.sound, propext |
| `Verif.Cli.C84_nothing` | Classical.choice, Quot.sound, propext |
| `Verif.Cli.C84_refused` | Classical.choice, Quot.sound, propext |
| `Verif.Stats.C85_total` | Classical.choice, Quot.sound, propext |
| `Verif.Stats.C85_flat` | Classical.choice, Quot.sound, propext |
| `Verif.Stats.C85_recorded_partial` | Classical.choice, Quot.sound, propext |
| `Verif.Stats.C85_calls_partial` | Classical.choice, Quot.sound, propext |
| `Verif.Stats.C85_dot_refuted` | Classical.choice, Quot.sound, propext |
| `Verif.Stats.C85_general_refuted` | Quot.sound, propext |
| `Verif.Address.C86_ipv4` | Classical.choice, Quot.sound, propext |
| `Verif.Address.C86_hostname_partial` | Classical.choice, Quot.sound, propext |
| `Verif.Address.C86_labels` | Quot.sound, propext |
| `Verif.Address.C86_first_check` | Classical.choice, Quot.sound, propext |
| `Verif.Address.C86_read_partial` | Classical.choice, Quot.sound, propext |
| `Verif.Address.C86_given` | Classical.choice, Quot.sound, propext |
| `Verif.Address.C86_machine` | Classical.choice, Quot.sound, propext |
| `Verif.Address.C86_read_refuted` | Classical.choice, Quot.sound, propext |
| `Verif.Cli.Help.C87_words` | Quot.sound, propext |
| `Verif.Cli.Help.C87_lines` | Quot.sound, propext |
| `Verif.Cli.Help.C87_width_partial` | Quot.sound, propext |
| `Verif.Cli.Help.C87_fill` | Quot.sound, propext |
| `Verif.Cli.Help.C87_long_refuted` | Quot.sound, propext |
| `Verif.Cli.C88_json` | Classical.choice, Quot.sound, propext |
| `Verif.Cli.C88_answer` | propext |
| `Verif.Cli.C88_screen` | Classical.choice, Quot.sound, propext |
| `Verif.Cli.C88_endpoint` | Classical.choice, Quot.sound, propext |
| `Verif.Cli.C88_sender_partial` | Classical.choice, Quot.sound, propext |
| `Verif.Cli.C88_messages` | Classical.choice, Quot.sound, propext |
| `Verif.Cli.C88_names` | Classical.choice, Quot.sound, propext |
| `Verif.Cli.C88_sender_names_partial` | Classical.choice, Quot.sound, propext |
| `Verif.Cli.C88_sender_messages_partial` | Classical.choice, Quot.sound, propext |
| `Verif.Cli.C88_no_request` | Classical.choice, Quot.sound, propext |
| `Verif.Cli.C88_unknown` | Classical.choice, Quot.sound, propext |
| `Verif.Cli.C88_titled` | Classical.choice, Quot.sound, propext |
| `Verif.Telemetry.C89_points_partial` | Classical.choice, Quot.sound, propext |
| `Verif.Telemetry.C89_endpoints_partial` | Classical.choice, Quot.sound, propext |
| `Verif.Telemetry.C89_source` | Classical.choice, Quot.sound, propext |
| `Verif.Telemetry.C89_name_refuted` | Classical.choice, Quot.sound, propext |
| `Verif.Telemetry.C89_standard_refuted` | Classical.choice, Quot.sound, propext |
| `Verif.Telemetry.C90_network` | Classical.choice, Quot.sound, propext |
| `Verif.Telemetry.C90_target` | Classical.choice, Quot.sound, propext |
| `Verif.Telemetry.C90_uds_partial` | Classical.choice, Quot.sound, propext |
| `Verif.Telemetry.C90_uds_refuted` | Classical.choice, Quot.sound, propext |
| `Verif.Telemetry.C90_server_types` | Classical.choice, Quot.sound, propext |
| `Verif.Address.C91_general` | Classical.choice, Quot.sound, propext |
| `Verif.Address.C91_simple_partial` | Classical.choice, Quot.sound, propext |
| `Verif.Address.C91_refuted` | Classical.choice, Quot.sound, propext |
| `Verif.Fun.C92_records` | Classical.choice, Quot.sound, propext |
| `Verif.Fun.C92_any_order` | Classical.choice, Quot.sound, propext |
| `Verif.Fun.C92_negative` | Quot.sound, propext |
| `Verif.Fun.C93_service_partial` | Classical.choice, Quot.sound, propext |
| `Verif.Fun.C93_lotto_partial` | Classical.choice, Quot.sound, propext |
| `Verif.Fun.C93_too_long_refuted` | Classical.choice, Quot.sound, propext |
| `Verif.Fun.C93_lotto_one` | Classical.choice, Quot.sound, propext |
| `Verif.Fun.C93_refuted` | Classical.choice, Quot.sound, propext |
| `Verif.Fun.C94_lottery` | Classical.choice, Quot.sound, propext |
| `Verif.Fun.C94_every_line` | Classical.choice, Quot.sound, propext |
| `Verif.Fun.C94_so_many` | Classical.choice, Quot.sound, propext |
| `Verif.Fun.C94_dice_partial` | Classical.choice, Quot.sound, propext |
| `Verif.Fun.C94_dice_refuted` | Classical.choice, Quot.sound, propext |
| `Verif.Fun.C94_roll_times` | Classical.choice, Quot.sound, propext |
| `Verif.Fun.C94_roll_times_few` | Classical.choice, Quot.sound, propext |
| `Verif.Pace.C95_paced` | Classical.choice, Quot.sound, propext |
| `Verif.Pace.C95_in_turn` | Classical.choice, Quot.sound, propext |
| `Verif.Pace.C95_rate` | Classical.choice, Quot.sound, propext |
| `Verif.Pace.C95_at_once` | Classical.choice, Quot.sound, propext |
| `Verif.Pace.C95_not_longer` | Classical.choice, Quot.sound, propext |
| `Verif.Pace.C95_same_sender` | Classical.choice, Quot.sound, propext |
| `Verif.Pace.C95_attempts` | Classical.choice, Quot.sound, propext |
| `Verif.Pace.C95_transmissions_refuted` | Classical.choice, Quot.sound, propext |
| `Verif.Pace.C95_single_attempt_partial` | Classical.choice, Quot.sound, propext |
| `Verif.Link.C96_one_connection` | Classical.choice, Quot.sound, propext |
| `Verif.Link.C96_first_message` | Classical.choice, Quot.sound, propext |
| `Verif.Link.C96_attempts` | Classical.choice, Quot.sound, propext |
| `Verif.Link.C96_kept_partial` | Classical.choice, Quot.sound, propext |
| `Verif.Link.C96_first_refuted` | Classical.choice, Quot.sound, propext |
| `Verif.Link.C97_in_use` | Classical.choice, Quot.sound, propext |
| `Verif.Link.C97_survives` | Classical.choice, Quot.sound, propext |
| `Verif.Link.C97_restarted` | Classical.choice, Quot.sound, propext |
| `Verif.Link.C97_regular_partial` | Classical.choice, Quot.sound, propext |
| `Verif.Link.C97_regained_partial` | Classical.choice, Quot.sound, propext |
| `Verif.Link.C97_regain_refuted` | Classical.choice, Quot.sound, propext |
| `Verif.Transient.C98_one_message` | Classical.choice, Quot.sound, propext |
| `Verif.Transient.C98_attempts` | Classical.choice, Quot.sound, propext |
| `Verif.Transient.C98_closed` | Classical.choice, Quot.sound, propext |
| `Verif.Transient.C98_in_use` | Classical.choice, Quot.sound, propext |
| `Verif.Transient.C98_smooth_partial` | Classical.choice, Quot.sound, propext |
| `Verif.Transient.C98_once_partial` | Classical.choice, Quot.sound, propext |
| `Verif.Transient.C98_resent_refuted` | propext |
| `Verif.Transient.C98_left_open_refuted` | Quot.sound, propext |
| `Verif.Datagram.C99_bound` | Quot.sound, propext |
| `Verif.Datagram.C99_kept` | Quot.sound, propext |
| `Verif.Datagram.C99_one_partial` | Quot.sound, propext |
| `Verif.Datagram.C99_replies_partial` | Classical.choice, Quot.sound, propext |
| `Verif.Datagram.C99_ends` | Quot.sound, propext |
| `Verif.Datagram.C99_late_refuted` | propext |
| `Verif.Datagram.C99_many_refuted` | Quot.sound, propext |
| `Verif.Counted.C100_told` | Classical.choice, Quot.sound, propext |
| `Verif.Counted.C100_totals_partial` | Classical.choice, Quot.sound, propext |
| `Verif.Counted.C100_status_refuted` | propext |
| `Verif.Grammar.C101_text` | Classical.choice, Quot.sound, propext |
| `Verif.Grammar.C101_exactly` | Classical.choice, Quot.sound, propext |
| `Verif.Grammar.C101_unambiguous` | Classical.choice, Quot.sound, propext |
| `Verif.Grammar.C101_key` | Classical.choice, Quot.sound, propext |
| `Verif.Grammar.C101_request` | Classical.choice, Quot.sound, propext |
| `Verif.Grammar.C101_same` | Classical.choice, Quot.sound, propext |
| `Verif.Grammar.C101_refused` | Classical.choice, Quot.sound, propext |
| `Verif.Grammar.C101_keyless` | Classical.choice, Quot.sound, propext |
| `Verif.Grammar.C101_documented_refuted` | Classical.choice, Quot.sound, propext |
| `Verif.Startup.C102_order` | Classical.choice, Quot.sound, propext |
| `Verif.Startup.C102_before_partial` | Classical.choice, Quot.sound, propext |
| `Verif.Startup.C102_leftover_refuted` | Quot.sound, propext |
| `Verif.Startup.C102_late_refuted` | Quot.sound, propext |
| `Verif.Startup.C102_failure` | Classical.choice, Quot.sound, propext |
| `Verif.Startup.C102_reason` | Classical.choice, Quot.sound, propext |
| `Verif.Startup.C102_setup` | Classical.choice, Quot.sound, propext |
| `Verif.Startup.C102_cancelled` | Classical.choice, Quot.sound, propext |
| `Verif.Args.C103_understood` | Classical.choice, Quot.sound, propext |
| `Verif.Args.C103_said` | Classical.choice, Quot.sound, propext |
| `Verif.Args.C103_exit` | Classical.choice, Quot.sound, propext |
| `Verif.Args.C103_unknown` | Classical.choice, Quot.sound, propext |
| `Verif.Args.C103_value_missing` | Classical.choice, Quot.sound, propext |
| `Verif.Args.C103_help` | Classical.choice, Quot.sound, propext |
| `Verif.Args.C103_help_exit` | Classical.choice, Quot.sound, propext |
| `Verif.Args.C103_parsers` | Classical.choice, Quot.sound, propext |
| `Verif.Args.C103_bem` | Classical.choice, Quot.sound, propext |
| `Verif.Args.C103_bsm` | Classical.choice, Quot.sound, propext |
| `Verif.Args.C103_bem_understood` | Classical.choice, Quot.sound, propext |
| `Verif.Args.C103_bsm_understood` | Classical.choice, Quot.sound, propext |
| `Verif.Args.C103_stat` | Classical.choice, Quot.sound, propext |
| `Verif.Args.C103_log` | Classical.choice, Quot.sound, propext |
| `Verif.Args.C103_options` | Classical.choice, Quot.sound, propext |
| `Verif.Args.C103_abbreviated_refuted` | Classical.choice, Quot.sound, propext |
| `Verif.Args.C103_rid_refuted` | Classical.choice, Quot.sound, propext |
| `Verif.Args.C103_dash_value_refuted` | Classical.choice, Quot.sound, propext |
| `Verif.Queue.C104_memory` | Classical.choice, Quot.sound, propext |
| `Verif.Queue.C104_push` | Classical.choice, Quot.sound, propext |
| `Verif.Queue.C104_pop` | Classical.choice, Quot.sound, propext |
| `Verif.Queue.C104_others` | Classical.choice, Quot.sound, propext |
| `Verif.Queue.C104_memory_only` | Classical.choice, Quot.sound, propext |
| `Verif.Queue.C104_memory_only_refuted` | Classical.choice, Quot.sound, propext |
| `Verif.Queue.C104_layout` | Classical.choice, Quot.sound, propext |
| `Verif.Queue.C104_full_pages` | Classical.choice, Quot.sound, propext |
| `Verif.Queue.C104_open` | Classical.choice, Quot.sound, propext |
| `Verif.Queue.C104_layout_refuted` | Quot.sound, propext |
| `Verif.Place.C105_not_set_partial` | Classical.choice, Quot.sound, propext |
| `Verif.Place.C105_missing` | Classical.choice, Quot.sound, propext |
| `Verif.Place.C105_set` | Classical.choice, Quot.sound, propext |
| `Verif.Place.C105_unbuffered` | Classical.choice, Quot.sound, propext |
| `Verif.Place.C105_none_refuted` | Classical.choice, Quot.sound, propext |
| `Verif.Place.C106_saved_partial` | Quot.sound, propext |
| `Verif.Place.C106_busy_refuted` | propext |
| `Verif.Place.C106_failed_refuted` | Classical.choice, Quot.sound, propext |
| `Verif.Place.C106_not_started` | Quot.sound, propext |
| `Verif.Long.C107_short` | Classical.choice, Quot.sound, propext |
| `Verif.Long.C107_until` | Classical.choice, Quot.sound, propext |
| `Verif.Long.C107_transient` | Classical.choice, Quot.sound, propext |
| `Verif.Long.C107_whole_partial` | Classical.choice, Quot.sound, propext |
| `Verif.Long.C107_shift_refuted` | Classical.choice, Quot.sound, propext |
| `Verif.Gather.C108_order` | Classical.choice, Quot.sound, propext |
| `Verif.Gather.C108_times` | Classical.choice, Quot.sound, propext |
| `Verif.Gather.C108_distance` | Classical.choice, Quot.sound, propext |
| `Verif.Gather.C108_goes_on` | Classical.choice, Quot.sound, propext |
| `Verif.Gather.C108_gives_way` | Classical.choice, Quot.sound, propext |
| `Verif.Gather.C108_zero_refuted` | Classical.choice, Quot.sound, propext |
| `Verif.Gather.C108_zero_accepted_refuted` | Classical.choice, Quot.sound, propext |
| `Verif.Serve.C109_connections_partial` | propext |
| `Verif.Serve.C109_order` | propext |
| `Verif.Serve.C109_nested` | Quot.sound, propext |
| `Verif.Serve.C109_datagram_refuted` | Quot.sound, propext |
| `Verif.Serve.C109_self_refuted` | Quot.sound, propext |
| `Verif.Size.C110_fits_partial` | Quot.sound, propext |
| `Verif.Size.C110_request_refuted` | Classical.choice, Quot.sound, propext |
| `Verif.Size.C110_response_refuted` | Classical.choice, Quot.sound, propext |
| `Verif.Listen.C111_ports_partial` | Quot.sound, propext |
| `Verif.Listen.C111_taken_refuted` | Quot.sound, propext |
| `Verif.Listen.C111_left` | propext |
| `Verif.Listen.C111_stopped` | Quot.sound, propext |
| `Verif.Listen.C112_datagram_partial` | Quot.sound, propext |
| `Verif.Listen.C112_hidden_refuted` | propext |
| `Verif.Listen.C112_listens` | Quot.sound, propext |
| `Verif.Listen.C112_stop` | Quot.sound, propext |
| `Verif.Stream.C113_acted` | Classical.choice, Quot.sound, propext |
| `Verif.Stream.C113_long` | Classical.choice, Quot.sound, propext |
| `Verif.Stream.C113_alone` | Classical.choice, Quot.sound, propext |
| `Verif.Stream.C113_stopped` | Classical.choice, Quot.sound, propext |
| `Verif.Batches.C114_isolated` | Classical.choice, Quot.sound, propext |
| `Verif.Batches.C114_once` | Classical.choice, Quot.sound, propext |
| `Verif.Batches.C114_all` | Classical.choice, Quot.sound, propext |
| `Verif.Batches.C114_small_partial` | Classical.choice, Quot.sound, propext |
| `Verif.Batches.C114_stuck_refuted` | Classical.choice, Quot.sound, propext |
| `Verif.Over.C115_unseen` | Classical.choice, Quot.sound, propext |
| `Verif.Over.C115_unanswered` | Classical.choice, Quot.sound, propext |
| `Verif.Over.C115_failed` | Classical.choice, Quot.sound, propext |
| `Verif.Over.C115_once_partial` | Classical.choice, Quot.sound, propext |
| `Verif.Over.C115_again_refuted` | Classical.choice, Quot.sound, propext |
| `Verif.Poll.C116_every` | Classical.choice, Quot.sound, propext |
| `Verif.Poll.C116_gap` | Classical.choice, Quot.sound, propext |
| `Verif.Poll.C116_detected` | Classical.choice, Quot.sound, propext |
| `Verif.Poll.C116_period_partial` | Classical.choice, Quot.sound, propext |
| `Verif.Poll.C116_period_refuted` | Classical.choice, Quot.sound, propext |
| `Verif.Poll.C116_udp` | Classical.choice, Quot.sound, propext |
| `Verif.Wait.C117_ends_partial` | Classical.choice, Quot.sound, propext |
| `Verif.Wait.C117_alone` | Classical.choice, Quot.sound, propext |
| `Verif.Wait.C117_goes_on` | Classical.choice, Quot.sound, propext |
| `Verif.Wait.C117_others_refuted` | Classical.choice, Quot.sound, propext |
| `Verif.Wait.C117_transient_partial` | Classical.choice, Quot.sound, propext |
| `Verif.Wait.C117_connect_refuted` | Classical.choice, Quot.sound, propext |
