{
 "claims": [
  {
   "property": "C01",
   "status": "proved",
   "theorems": [
    "Verif.C01_tag_layering"
   ],
   "note": ""
  },
  {
   "property": "C02",
   "status": "proved",
   "theorems": [
    "Verif.C02_tag_edits_are_map_updates"
   ],
   "note": ""
  },
  {
   "property": "C03",
   "status": "proved",
   "theorems": [
    "Verif.C03_harden_failure",
    "Verif.C03_harden_result"
   ],
   "note": ""
  },
  {
   "property": "C04",
   "status": "proved",
   "theorems": [
    "Verif.C04_thaw_harden"
   ],
   "note": ""
  },
  {
   "property": "C05",
   "status": "proved",
   "theorems": [
    "Verif.C05_add_rule",
    "Verif.C05_unlike_sketches_not_additive"
   ],
   "note": "Kind/value rule for all pairs of kinds; C05_unlike_sketches_not_additive marks the limit of count additivity"
  },
  {
   "property": "C06",
   "status": "partial",
   "theorems": [
    "Verif.C06_add_preserves_persistence_false",
    "Verif.C06_add_persistence_partial"
   ],
   "note": "False of the code (persist := rhs.persist); negation proved with a witness, exact rule proved"
  },
  {
   "property": "C07",
   "status": "partial",
   "theorems": [
    "Verif.C07_points_order_partial",
    "Verif.C07_within_order_false",
    "Verif.C07_within_order_partial"
   ],
   "note": "False of the code for points without a tag map; order laws proved for points that carry one"
  },
  {
   "property": "C08",
   "status": "proved",
   "theorems": [
    "Verif.C08_bucket_bookkeeping"
   ],
   "note": ""
  },
  {
   "property": "C09",
   "status": "proved",
   "theorems": [
    "Verif.C09_one_point_per_bin"
   ],
   "note": "Tags are compared in iteration order, as the code does; see C116 for equal tags iterated in different orders"
  },
  {
   "property": "C10",
   "status": "proved",
   "theorems": [
    "Verif.C10_bucket_fold"
   ],
   "note": ""
  },
  {
   "property": "C11",
   "status": "proved",
   "theorems": [
    "Verif.C11_counters_conserved"
   ],
   "note": ""
  },
  {
   "property": "C12",
   "status": "proved",
   "theorems": [
    "Verif.C12_reset_keeps_persistent"
   ],
   "note": ""
  },
  {
   "property": "C13",
   "status": "proved",
   "theorems": [
    "Verif.C13_persist_carries_forward",
    "Verif.C13_collision_leaks"
   ],
   "note": ""
  },
  {
   "property": "C14",
   "status": "proved",
   "theorems": [
    "Verif.C14_send_exactly_once",
    "Verif.C14_send_per_channel"
   ],
   "note": ""
  },
  {
   "property": "C15",
   "status": "proved",
   "theorems": [
    "Verif.C15_send_order"
   ],
   "note": ""
  },
  {
   "property": "C16",
   "status": "proved",
   "theorems": [
    "Verif.C16_stops_at_last_shutdown",
    "Verif.C16_forwards_every_shutdown",
    "Verif.C16_builtin_filters_keep_shutdowns"
   ],
   "note": "Stopping point and Shutdown forwarding, for every filter step; the built-in filters meet the forwarding hypothesis"
  },
  {
   "property": "C17",
   "status": "partial",
   "theorems": [
    "Verif.C17_results_in_order_partial",
    "Verif.C17_builtin_filters_tidy",
    "Verif.C17_programmable_tidy_partial",
    "Verif.C17_results_in_order_false",
    "Verif.C17_exact_partial",
    "Verif.C17_filters_append"
   ],
   "note": "False of the code: the output buffer is not cleared after a failed step. C17_exact_partial: for every filter of cernan and every script, exactly what is forwarded: the output of a failed step goes out in front of the next successful one's."
  },
  {
   "property": "C18",
   "status": "proved",
   "theorems": [
    "Verif.C18_release_exactly_when_due",
    "Verif.C18_wait_is_tolerance_flushes"
   ],
   "note": ""
  },
  {
   "property": "C19",
   "status": "proved",
   "theorems": [
    "Verif.C19_release_order"
   ],
   "note": ""
  },
  {
   "property": "C20",
   "status": "partial",
   "theorems": [
    "Verif.C20_nothing_lost_partial",
    "Verif.C20_nothing_lost_false",
    "Verif.C20_exact_partial",
    "Verif.C20_held_young"
   ],
   "note": "False of the code for raw events (C20_nothing_lost_false). C20_exact_partial: over any history, what was emitted and what is held are together exactly the flushes and the events with a timestamp; C20_held_young: what is held came with at most tolerance flushes after it."
  },
  {
   "property": "C21",
   "status": "partial",
   "theorems": [
    "Verif.C21_delay_boundary_false",
    "Verif.C21_delay_decision_partial"
   ],
   "note": "False of the code at distance exactly the tolerance; exact decision proved"
  },
  {
   "property": "C22",
   "status": "proved",
   "theorems": [
    "Verif.C22_json_precedence"
   ],
   "note": ""
  },
  {
   "property": "C23",
   "status": "partial",
   "theorems": [
    "Verif.C23_tick_once_partial",
    "Verif.C23_tick_once_false",
    "Verif.C23_any_script_partial",
    "Verif.C23_held_false"
   ],
   "note": "False of the code when tick fails (C23_held_false: the flush is then held back, and dropped at Shutdown). Exact for every script: C23_any_script_partial says the flushes passed on and the one held are the ticks due, each once; with ticks that succeed nothing is held."
  },
  {
   "property": "C24",
   "status": "proved",
   "theorems": [
    "Verif.C24_delivered_once_in_order",
    "Verif.C24_closed_valve_flushes",
    "Verif.C24_everything_is_delivered",
    "Verif.C24_eventually",
    "Verif.C24_stuck"
   ],
   "note": "Any valve behaviour: C24_eventually needs only that some number of flushes reopens the valve; C24_stuck says what happens otherwise."
  },
  {
   "property": "C25",
   "status": "proved",
   "theorems": [
    "Verif.C25_flush_per_due_pulse"
   ],
   "note": ""
  },
  {
   "property": "C26",
   "status": "partial",
   "theorems": [
    "Verif.C26_shutdown_last_partial",
    "Verif.C26_single_source_stops",
    "Verif.C26_waits_for_every_source_false"
   ],
   "note": "False of the code for two or more sources (missing break); ordering and at-most-once proved, single source exact"
  },
  {
   "property": "C27",
   "status": "proved",
   "theorems": [
    "Verif.C27_flush_accounts"
   ],
   "note": ""
  },
  {
   "property": "C28",
   "status": "proved",
   "theorems": [
    "Verif.C28_acks_exactly_once"
   ],
   "note": ""
  },
  {
   "property": "C29",
   "status": "proved",
   "theorems": [
    "Verif.C29_retry_preserves_message",
    "Verif.C29_flush_only_resubmits"
   ],
   "note": ""
  },
  {
   "property": "C30",
   "status": "proved",
   "theorems": [
    "Verif.C30_valve_tracks_bytes"
   ],
   "note": ""
  },
  {
   "property": "C31",
   "status": "partial",
   "theorems": [
    "Verif.C31_answer_after_ack",
    "Verif.C31_no_lost_ack",
    "Verif.C31_own_message_acked_false",
    "Verif.C31_own_message_two_channels_false",
    "Verif.C31_own_message_acked_partial",
    "Verif.C31_own_message_exact_partial"
   ],
   "note": "Safety, no lost acknowledgement and no early release are proved for every schedule. Read per message (the answered message itself was acknowledged) the property is false: the bag is keyed by connection, so a late ack of an earlier publish, or a second channel's ack, releases the next synchronous publish. Exactly: it holds of a publish, whatever follows, iff no earlier message of the connection is still to be acknowledged when it is registered (C31_own_message_exact_partial); so always for synchronous-only, single-channel connections."
  },
  {
   "property": "C32",
   "status": "proved",
   "theorems": [
    "Verif.C32_frame_round_trip"
   ],
   "note": ""
  },
  {
   "property": "C33",
   "status": "proved",
   "theorems": [
    "Verif.C33_answers_sync_frames",
    "Verif.C33_stops_at_invalid",
    "Verif.C33_from_socket"
   ],
   "note": ""
  },
  {
   "property": "C34",
   "status": "partial",
   "theorems": [
    "Verif.C34_chunking_independent_partial",
    "Verif.C34_exact_partial",
    "Verif.C34_grouping",
    "Verif.C34_split_prefix_false",
    "Verif.C34_empty_payload_false"
   ],
   "note": "False when the stream blocks inside a 4-byte length prefix (read_exact drops the bytes read so far) and for empty payloads (Ok(0) is taken for EOF). Proved for non-empty payloads with no block inside a prefix; for every stream, exactly what is read, which does not depend on the grouping of bytes into reads (C34_exact_partial, C34_grouping)."
  },
  {
   "property": "C35",
   "status": "proved",
   "theorems": [
    "Verif.C35_oversized_rejected",
    "Verif.C35_within_limit_not_rejected"
   ],
   "note": ""
  },
  {
   "property": "C36",
   "status": "proved",
   "theorems": [
    "Verif.C36_write_all",
    "Verif.C36_write_all_ends"
   ],
   "note": ""
  },
  {
   "property": "C37",
   "status": "partial",
   "theorems": [
    "Verif.C37_lines_once_partial",
    "Verif.C37_exact_partial",
    "Verif.C37_pieces_partial",
    "Verif.C37_partial_line_false",
    "Verif.C37_blank_line_false"
   ],
   "note": "False of the code for partial lines (the last character is cut off and the line is split) and for blank lines (never delivered). Proved for appends of whole non-blank lines under every interleaving; for any appends, exactly what is delivered: each read takes the first unread line, or what is there of it, less its last character, and nothing is merged, repeated or reordered (C37_exact_partial, C37_pieces_partial)."
  },
  {
   "property": "C38",
   "status": "partial",
   "theorems": [
    "Verif.C38_rotation_partial",
    "Verif.C38_exact_partial",
    "Verif.C38_quick_rotations_false",
    "Verif.C38_recreated_file_false",
    "Verif.C38_late_lines_false"
   ],
   "note": "False of the code for two rotations between reads, and when the path is missing for two passes (the recreated file is opened at its end). Proved for rotations that happen after the watcher opened the current file; C38_exact_partial: for rotations at any time, exactly what is delivered: everything written except the files rotated away before the watcher had opened them."
  },
  {
   "property": "C39",
   "status": "proved",
   "theorems": [
    "Verif.C39_fair_pass",
    "Verif.C39_pass_ends",
    "Verif.C39_every_file_served"
   ],
   "note": ""
  },
  {
   "property": "C40",
   "status": "proved",
   "theorems": [
    "Verif.C40_line",
    "Verif.C40_packet",
    "Verif.C40_readings"
   ],
   "note": ""
  },
  {
   "property": "C41",
   "status": "partial",
   "theorems": [
    "Verif.C41_rejected_packet_leaks_false",
    "Verif.C41_rejected_at_first_line_partial",
    "Verif.C41_accepted_forwarded_partial",
    "Verif.C41_exact_partial"
   ],
   "note": "False of the code: points of the lines before the bad one leak into the next accepted packet of the batch. Proved when rejected packets fail at their first line; nothing of accepted packets is ever lost. C41_exact_partial says exactly what a packet leaves behind and forwards: the points of the lines before its first bad one."
  },
  {
   "property": "C42",
   "status": "proved",
   "theorems": [
    "Verif.C42_payload",
    "Verif.C42_words"
   ],
   "note": ""
  },
  {
   "property": "C43",
   "status": "partial",
   "theorems": [
    "Verif.C43_rejected_line_leaks_false",
    "Verif.C43_rejected_at_first_triple_partial",
    "Verif.C43_accepted_forwarded_partial",
    "Verif.C43_exact_partial"
   ],
   "note": "False of the code: same leak within a graphite connection. Proved when rejected lines fail at their first triple; nothing of accepted lines is ever lost. C43_exact_partial says exactly what is forwarded of a connection and what waits: of every line the points before its first bad triple, up to the last good line."
  },
  {
   "property": "C44",
   "status": "partial",
   "theorems": [
    "Verif.C44_padding_keeps_points",
    "Verif.C44_no_padding_when_off",
    "Verif.C44_zero_point",
    "Verif.C44_histogram_bounds_false"
   ],
   "note": "Holds for every stored sequence under the assumption that the 64-bit hash distinguishes the series present (HashOk). C44_histogram_bounds_false: a histogram's zero points use the default bounds, not the series' own."
  },
  {
   "property": "C45",
   "status": "partial",
   "theorems": [
    "Verif.C45_pads_inside_gaps",
    "Verif.C45_time_order",
    "Verif.C45_gap_is_padded",
    "Verif.C45_across_flushes_partial",
    "Verif.C45_store_in_order",
    "Verif.C45_across_flushes_false",
    "Verif.C45_mixed_kinds_false",
    "Verif.C45_exact_partial"
   ],
   "note": "Soundness, order and completeness of padding within a flush are proved; C45_exact_partial: exactly which zero points a flush emits and where. Across flushes a series is padded only if it has at least two points or is iterated last (C45_across_flushes_false); a series that changes kind is padded out of order (C45_mixed_kinds_false)."
  },
  {
   "property": "C46",
   "status": "proved",
   "theorems": [
    "Verif.C46_flush_delivers",
    "Verif.C46_flush_returns"
   ],
   "note": "Payload and retry loop; the text is described by C71_text_partial."
  },
  {
   "property": "C47",
   "status": "partial",
   "theorems": [
    "Verif.C47_prometheus_age",
    "Verif.C47_prometheus_exact_partial",
    "Verif.C47_wavefront_age",
    "Verif.C47_wavefront_exact_partial",
    "Verif.C47_wavefront_huge_age_false"
   ],
   "note": "False for thresholds of 2^63 seconds or more, which are read as negative and reject every point (C47_wavefront_huge_age_false). Wavefront and Prometheus: the rule exactly for thresholds below 2^63, and C47_wavefront_exact_partial / C47_prometheus_exact_partial say for every configurable threshold exactly which points are stored. No other sink has an age threshold."
  },
  {
   "property": "C48",
   "status": "proved",
   "theorems": [
    "Verif.C48_one_kind"
   ],
   "note": ""
  },
  {
   "property": "C49",
   "status": "partial",
   "theorems": [
    "Verif.C49_reported_once",
    "Verif.C49_names_separate_partial",
    "Verif.C49_tags_separate_false",
    "Verif.C49_whose_tags_partial"
   ],
   "note": "False of the code: the sink aggregates by name only, so points with other tags are merged under the first tag map (of a summary: that of the oldest sample held), exactly (C49_whose_tags_partial). Proved: points of different names never influence each other."
  },
  {
   "property": "C50",
   "status": "proved",
   "theorems": [
    "Verif.C50_window",
    "Verif.C50_sum_total",
    "Verif.C50_oldest_dropped",
    "Verif.C50_purge_exact",
    "Verif.C50_purge_count",
    "Verif.C50_history"
   ],
   "note": "Over whole histories, what a summary holds and reports is the replay of a small specification (C50_history). Purging removes samples further than the window from now in either direction (also future ones). The count is of accepted points since the sink started."
  },
  {
   "property": "C51",
   "status": "partial",
   "theorems": [
    "Verif.C51_types_exact_partial",
    "Verif.C51_type_lines_partial",
    "Verif.C51_samples",
    "Verif.C51_scrape_answer",
    "Verif.C51_buckets_cumulative",
    "Verif.C51_type_once_false",
    "Verif.C51_labels_ambiguous_false",
    "Verif.C51_bucket_names_false",
    "Verif.C51_reads_back_partial"
   ],
   "note": "Buckets and TYPE placement proved; a name has as many TYPE lines as reported names are cleaned up to it, so exactly one for each if and only if no two are cleaned up to the same (C51_types_exact_partial); a reader of the text recovers names, labels and numbers, for tags without quotes, backslashes or line feeds. False of the code: names that sanitise to the same string give several TYPE lines; label values are not escaped."
  },
  {
   "property": "C52",
   "status": "proved",
   "theorems": [
    "Verif.C52_sanitize"
   ],
   "note": ""
  },
  {
   "property": "C53",
   "status": "partial",
   "theorems": [
    "Verif.C53_waiting_partial",
    "Verif.C53_waiting_255_partial",
    "Verif.C53_line_partial",
    "Verif.C53_limit_255_false"
   ],
   "note": "Exact description of the buffer for every history and every limit: C53_waiting_partial below 255; with limit 255 the u8 counter wraps and a refused line is kept until acknowledged (C53_waiting_255_partial, C53_limit_255_false; panic with overflow checks)."
  },
  {
   "property": "C54",
   "status": "proved",
   "theorems": [
    "Verif.C54_flush",
    "Verif.C54_backoff",
    "Verif.C54_exactly_once"
   ],
   "note": ""
  },
  {
   "property": "C55",
   "status": "partial",
   "theorems": [
    "Verif.C55_framed_partial",
    "Verif.C55_round_trip_partial",
    "Verif.C55_until_idle_partial",
    "Verif.C55_sample_count_false",
    "Verif.C55_oversized_false",
    "Verif.C55_idle_false",
    "Verif.C55_log_fields_false",
    "Verif.C55_histogram_false"
   ],
   "note": "Proved for sums, sets and summaries over any cutting of the stream, and exactly for streams with idle flushes: what was flushed before the first idle one arrives (C55_until_idle_partial). False of the code: histograms arrive corrupted, a point with 16..127 (and further ranges of) samples loses its whole batch, an idle flush closes the link, log fields are dropped, a batch over 1 MiB (any log line that long makes one) is refused by the source and lost."
  },
  {
   "property": "C56",
   "status": "partial",
   "theorems": [
    "Verif.C56_backoff_partial",
    "Verif.C56_doubles_false",
    "Verif.C56_wavefront",
    "Verif.C56_wavefront_connect_false"
   ],
   "note": "All of it proved except one step: delay(1) = 1 ms although the documentation says 2 ms, so the second attempt waits four times the first. The waits of a Wavefront flush are proved; a failed connection is not counted there, so that a proxy that is down is tried again without any delay."
  },
  {
   "property": "C57",
   "status": "proved",
   "theorems": [
    "Verif.C57_mutual",
    "Verif.C57_wiring"
   ],
   "note": "Upstream sets, channels and flush-timer channels are exactly those of the configuration, for every order of the tables, when no two nodes forward to each other; C57_mutual says what happens otherwise."
  },
  {
   "property": "C58",
   "status": "partial",
   "theorems": [
    "Verif.C58_starts_partial",
    "Verif.C58_refused",
    "Verif.C58_unknown",
    "Verif.C58_isolated_false",
    "Verif.C58_status_false"
   ],
   "note": "A node with a bad forward is never started, and start-up succeeds exactly when all forwards have channels and no filter is isolated. False in full: an isolated filter panics, and bad forwards of native sources (or to sources) stop start-up late with exit status 0."
  },
  {
   "property": "C59",
   "status": "proved",
   "theorems": [
    "Verif.C59_matrix"
   ],
   "note": "Every history of adds and pops; counting, filtering and popping answer from the specification's edges."
  },
  {
   "property": "C60",
   "status": "proved",
   "theorems": [
    "Verif.C60_fresh",
    "Verif.C60_join_ready",
    "Verif.C60_shutdown",
    "Verif.C60_progress"
   ],
   "note": "Fresh ids, exact join of finished threads, shutdown signals and joins all; over all schedules. A crash of a handler is C61."
  },
  {
   "property": "C61",
   "status": "partial",
   "theorems": [
    "Verif.C61_crash_false",
    "Verif.C61_left_running_false",
    "Verif.C61_partial"
   ],
   "note": "False of the code: joining a crashed handler panics (expect on the join result), so the rest are left running. Proved that shutdown works when no handler has crashed."
  },
  {
   "property": "C62",
   "status": "proved",
   "theorems": [
    "Verif.C62_kinds",
    "Verif.C62_distinct",
    "Verif.C62_counter",
    "Verif.C62_report",
    "Verif.C62_pass",
    "Verif.C62_queue",
    "Verif.C62_gauge",
    "Verif.C62_shutdown",
    "Verif.C62_no_forwards"
   ],
   "note": "C62_counter, C62_report, C62_pass, C62_kinds, C62_gauge, C62_shutdown, C62_queue, C62_no_forwards over every interleaving."
  },
  {
   "property": "C63",
   "status": "proved",
   "theorems": [
    "Verif.C63_delivered",
    "Verif.C63_completes",
    "Verif.C63_filters_proper"
   ],
   "note": "Chains of any length of Proper filters (all built-in ones; the programmable one if its tick never fails), any sink, all schedules, pulses included; lossless queues (full queues: C14). C63_completes: from every reachable state the sink can still be reached by Shutdown (if some number of flushes reopens its valve)."
  },
  {
   "property": "C64",
   "status": "proved",
   "theorems": [
    "Verif.C64_pulses",
    "Verif.C64_increasing"
   ],
   "note": "A pulse is lost only to a channel that reports Full (C14)."
  },
  {
   "property": "C65",
   "status": "partial",
   "theorems": [
    "Verif.C65_flush_interval_partial",
    "Verif.C65_wraps_false",
    "Verif.C65_fits"
   ],
   "note": "C65_flush_interval_partial: own seconds times 100 modulo 2^64, else global, else default. C65_fits: for 0 to 2^64/100 seconds this is exactly the ticks asked for. C65_wraps_false: negative or very large seconds wrap around instead of being refused."
  },
  {
   "property": "C66",
   "status": "partial",
   "theorems": [
    "Verif.C66_kafka_never_panics_false",
    "Verif.C66_kafka_never_panics_partial",
    "Verif.C66_exact_partial"
   ],
   "note": "False of the code: str::from_utf8(&k).unwrap() panics on a metadata key that is not UTF-8 (src/sink/kafka.rs). C66_exact_partial: for a broker that answers faithfully, the sink panics exactly on histories that deliver a raw event with such a key."
  },
  {
   "property": "C67",
   "status": "partial",
   "theorems": [
    "Verif.C67_malformed_frame_panics_false",
    "Verif.C67_complete_header_no_panic_partial",
    "Verif.C67_exact_partial",
    "Verif.C67_every_connection_partial"
   ],
   "note": "False: unwrap on short reads panics the handler. C67_exact_partial: it panics on exactly the payloads that are no frame of the documented format; C67_every_connection_partial describes every connection completely."
  },
  {
   "property": "C68",
   "status": "proved",
   "theorems": [
    "Verif.C68_busy_no_wait",
    "Verif.C68_idle_backoff",
    "Verif.C68_idle_backoff_from_start"
   ],
   "note": ""
  },
  {
   "property": "C69",
   "status": "partial",
   "theorems": [
    "Verif.C69_no_panic_partial",
    "Verif.C69_exact_line_partial",
    "Verif.C69_exact_partial",
    "Verif.C69_error_bound_false"
   ],
   "note": "False for configurations with summarize_error_bound >= 1, which the loader accepts: every unmapped timer panics the source. Proved for usable configurations; C69_exact_partial: for any configuration, exactly which batches bring the source down."
  },
  {
   "property": "C70",
   "status": "partial",
   "theorems": [
    "Verif.C70_lines_independent_of_chunks_partial",
    "Verif.C70_split_character_false",
    "Verif.C70_unfinished_line_false",
    "Verif.C70_utf8",
    "Verif.C70_exact_partial"
   ],
   "note": "False when a read blocks inside a multi-byte character, and for an unterminated last line after a block. Proved otherwise, for every chunking; C70_exact_partial: for every connection, exactly which lines are handed over."
  },
  {
   "property": "C71",
   "status": "partial",
   "theorems": [
    "Verif.C71_text_partial",
    "Verif.C71_nan_false"
   ],
   "note": "Exact text proved when every printed value can be compared; a NaN gauge or counter panics (C71_nan_false)."
  },
  {
   "property": "C72",
   "status": "partial",
   "theorems": [
    "Verif.C72_open_iff_few",
    "Verif.C72_exact_partial",
    "Verif.C72_flush_reopens_partial",
    "Verif.C72_flush_reopens_false"
   ],
   "note": "False with more than 10,000 persistent series (C72_flush_reopens_false). C72_exact_partial: after a flush the valve is open exactly if at most 10,000 series have a newest point that is persistent."
  },
  {
   "property": "C73",
   "status": "proved",
   "theorems": [
    "Verif.C73_script_output"
   ],
   "note": ""
  },
  {
   "property": "C74",
   "status": "partial",
   "theorems": [
    "Verif.C74_no_panic_partial",
    "Verif.C74_zero_window_false",
    "Verif.C74_exact_partial"
   ],
   "note": "False of the code for a window of 0 seconds. C74_exact_partial says exactly when inserting and flushing panics, for every window: only with a window of 0 seconds, when the first point of a name is a summary and the next summary of the name has the same time with no flush in another second in between. Scrapes never panic for windows of at least 1 second. Assumed: fewer than 2^64-1 operations, sketches whose quantile query answers whenever they are non-empty."
  },
  {
   "property": "C75",
   "status": "proved",
   "theorems": [
    "Verif.C75_kept_forever",
    "Verif.C75_totals"
   ],
   "note": ""
  },
  {
   "property": "C76",
   "status": "partial",
   "theorems": [
    "Verif.C76_documents",
    "Verif.C76_text_lost_false"
   ],
   "note": "Exact contents of every document proved; read strictly the property is false: a tag or field named payload, path, uuid or timestamp replaces the line's own."
  },
  {
   "property": "C77",
   "status": "partial",
   "theorems": [
    "Verif.C77_no_panic_partial",
    "Verif.C77_answers_false",
    "Verif.C77_time_false",
    "Verif.C77_exact_partial"
   ],
   "note": "False of the code: an answer about an unknown or already acknowledged id, and a time the date library cannot represent, panic. C77_exact_partial: for limits below 255, exactly which flushes panic; C77_no_panic_partial: none with honest servers and representable times, for every limit."
  },
  {
   "property": "C78",
   "status": "partial",
   "theorems": [
    "Verif.C78_nanoseconds",
    "Verif.C78_times_false",
    "Verif.C78_text_partial",
    "Verif.C78_nan_false"
   ],
   "note": "Text proved for comparable numbers; times proved for 0 <= seconds <= 9223372036. False of the code: times before 1970 and after 2262 are written wrongly, NaN panics."
  },
  {
   "property": "C79",
   "status": "partial",
   "theorems": [
    "Verif.C79_round_trip_partial",
    "Verif.C79_size_partial",
    "Verif.C79_rejected_false",
    "Verif.C79_unknown_fields",
    "Verif.C79_packing"
   ],
   "note": "Proved for every payload whose points have a number of samples sized right; for all others the announced size is short and the payload is proved unreadable."
  },
  {
   "property": "C80",
   "status": "partial",
   "theorems": [
    "Verif.C80_flush",
    "Verif.C80_attempt_partial",
    "Verif.C80_unnoticed_false",
    "Verif.C80_undropped_false",
    "Verif.C80_recovers",
    "Verif.C80_attempts_partial"
   ],
   "note": "The flush loop is proved over what each attempt is taken for. False of the code: attempts go through two buffers that are never flushed, and errors when they are dropped are ignored, so a batch of up to 8 KiB is taken for written over a dead connection (C80_unnoticed_false); of larger ones all but 16 KiB is accounted for. C80_attempts_partial assumes the 32-bit counter does not saturate. Whether protobuf's stream passes on its bytes when dropped is a parameter (C80_undropped_false)."
  },
  {
   "property": "C81",
   "status": "partial",
   "theorems": [
    "Verif.C81_seconds_partial",
    "Verif.C81_extreme_false",
    "Verif.C81_rounding"
   ],
   "note": "Proved for |ms| up to 2^51; false at the ends of the 64-bit range."
  },
  {
   "property": "C82",
   "status": "proved",
   "theorems": [
    "Verif.C82_no_panic"
   ],
   "note": "The sketch library accepting the bounds 1, 10, 100, 1000 is a hypothesis."
  },
  {
   "property": "C83",
   "status": "partial",
   "theorems": [
    "Verif.C83_purged_false",
    "Verif.C83_last_partial"
   ],
   "note": "False of the code: the number of points purged by the Prometheus sink (and the Elasticsearch buffer length) is stored, not added, but reported as a sum. Proved: the last stored value is reported once."
  },
  {
   "property": "C84",
   "status": "partial",
   "theorems": [
    "Verif.C84_partial",
    "Verif.C84_loses_events_false"
   ],
   "note": "False of the code: a filter forwards every Shutdown it receives, not just the last, so everything downstream of a filter with several sources stops at the first. Proved: everything received before the first Shutdown is delivered."
  },
  {
   "property": "C85",
   "status": "partial",
   "theorems": [
    "Verif.C85_elasticsearch",
    "Verif.C85_influxdb",
    "Verif.C85_wavefront",
    "Verif.C85_kafka",
    "Verif.C85_elasticsearch_exact",
    "Verif.C85_influxdb_exact",
    "Verif.C85_native_false",
    "Verif.C85_console_false"
   ],
   "note": "Proved for Elasticsearch, InfluxDB, Wavefront and Kafka in every execution of the run-loop, and for Elasticsearch and InfluxDB that the bound is reached without an early flush. False of the native and console sinks, whose valves are always open (C85_native_false, C85_console_false)."
  },
  {
   "property": "C86",
   "status": "partial",
   "theorems": [
    "Verif.C86_elasticsearch_accepted",
    "Verif.C86_elasticsearch_clean_partial",
    "Verif.C86_influxdb",
    "Verif.C86_native",
    "Verif.C86_kafka",
    "Verif.C86_console",
    "Verif.C86_elasticsearch_partial",
    "Verif.C86_elasticsearch_false",
    "Verif.C86_wavefront",
    "Verif.C86_console_texts"
   ],
   "note": "Proved for InfluxDB, native (up to what C80 takes for written), Kafka, console and Wavefront (for Wavefront the text is that of the store built from the arrivals, as far as the numbers can be compared). Elasticsearch: every line is part of at least one flush (partial); a failed request at shutdown loses its lines (C86_elasticsearch_false). If every request is accepted in full, the requests are exactly the lines received (C86_elasticsearch_accepted); if some fail altogether, the accepted requests followed by the buffer are (C86_elasticsearch_clean_partial)."
  },
  {
   "property": "C87",
   "status": "proved",
   "theorems": [
    "Verif.C87_console_flush"
   ],
   "note": "Exact text of a flush for every state; the external number and time formatting is a parameter."
  },
  {
   "property": "C88",
   "status": "partial",
   "theorems": [
    "Verif.C88_nodes",
    "Verif.C88_names_partial",
    "Verif.C88_same_path_false"
   ],
   "note": "C88_nodes: nodes are exactly those the document asks for. C88_names_partial: names are distinct iff no file is tailed twice. C88_same_path_false: two file sources of one path share a name."
  },
  {
   "property": "C89",
   "status": "proved",
   "theorems": [
    "Verif.C89_global_tags"
   ],
   "note": "C89_global_tags, for documents without duplicate keys (WellFormed)."
  },
  {
   "property": "C90",
   "status": "partial",
   "theorems": [
    "Verif.C90_globals_partial",
    "Verif.C90_filters_partial",
    "Verif.C90_sinks_partial",
    "Verif.C90_kafka_partial",
    "Verif.C90_sources_partial",
    "Verif.C90_loads",
    "Verif.C90_wraps_false",
    "Verif.C90_ignored_false"
   ],
   "note": "Per group of components: each setting as written modulo its machine width, or the default; which configurations load at all is settled exactly (C90_loads). Missing: numbers out of range (C90_wraps_false) and settings of the wrong type that are ignored (C90_ignored_false)."
  },
  {
   "property": "C91",
   "status": "partial",
   "theorems": [
    "Verif.C91_wiring",
    "Verif.C91_starts_partial"
   ],
   "note": "C91_wiring is complete given distinct file paths; C91_starts_partial inherits from C58 that a filter without neighbours makes start-up panic."
  },
  {
   "property": "C92",
   "status": "partial",
   "theorems": [
    "Verif.C92_exits_run_partial",
    "Verif.C92_exits_partial",
    "Verif.C92_orderly",
    "Verif.C92_unfed_false",
    "Verif.C92_same_file_false",
    "Verif.C92_reopens_partial",
    "Verif.C92_elasticsearch_down_false",
    "Verif.C92_lost_shutdown_false",
    "Verif.C92_console_reopens"
   ],
   "note": "The process exits exactly if every sink and filter is fed by some source (C92_exits_partial), for every configuration with distinct names, every fair schedule, and filters and sinks with the stated properties, which the built-in filters (C63_filters_proper) and sinks (C92_reopens_partial) have; and whatever queues are full when, as long as no Shutdown is sent to a full queue. False for: a sink or filter no forwards name (C92_unfed_false), two file sources with the same path (C92_same_file_false), an Elasticsearch sink holding 10001 lines while Elasticsearch is away (C92_elasticsearch_down_false), and a Shutdown sent to a full queue, which util::send drops (C92_lost_shutdown_false). C92_orderly: it never exits before a signal has arrived and all sources, filters and sinks have returned. C92_exits_run_partial: the sinks' valves need only open in what happens to them in this run, as those of Wavefront sinks given gauges and counters of at most 10,000 series do (C146_wavefront_reopens)."
  },
  {
   "property": "C93",
   "status": "partial",
   "theorems": [
    "Verif.C93_queues",
    "Verif.C93_full",
    "Verif.C93_filters",
    "Verif.C93_sinks",
    "Verif.C93_lossy_partial",
    "Verif.C93_end_to_end_partial",
    "Verif.C93_at_exit_partial",
    "Verif.C93_two_sources_false",
    "Verif.C93_several_partial",
    "Verif.C93_before_signal",
    "Verif.C93_quiet",
    "Verif.C93_overtaken_false"
   ],
   "note": "Queues, filters and sinks: proved for every configuration with distinct names, every schedule, every pattern of full queues and every time (C93_queues, C93_filters, C93_sinks); what is dropped is on record and is exactly what finds the queue full (C93_full). Whole way from a source to a sink, including the filters' effect and the events dropped on the way: proved for sinks fed by one source through a chain of filters (C93_lossy_partial; without drops C93_end_to_end_partial, C93_at_exit_partial). False for a sink fed by two: C93_two_sources_false, the process exits with an accepted line not delivered. For any number of sources feeding a sink, directly or through a single chain of filters: everything they sent before the signal, or before the first of them returned, is delivered (C93_several_partial, C93_before_signal), and everything if they are quiet since (C93_quiet). Where chains join further down even what was sent before the signal can be lost: C93_overtaken_false."
  },
  {
   "property": "C94",
   "status": "partial",
   "theorems": [
    "Verif.C94_metric_reads",
    "Verif.C94_metric_writes",
    "Verif.C94_log_reads",
    "Verif.C94_log_writes",
    "Verif.C94_push_clear",
    "Verif.C94_missing_strings",
    "Verif.C94_panics_partial",
    "Verif.C94_out_of_range_false",
    "Verif.C94_query_false"
   ],
   "note": "Exact effect of every call that names something that exists, of pushing, clearing and missing strings; exact condition for panics (C94_panics_partial). False: naming something that does not exist panics (C94_out_of_range_false); metric_query takes percentile and index from the same argument (C94_query_false)."
  },
  {
   "property": "C95",
   "status": "proved",
   "theorems": [
    "Verif.C95_limits",
    "Verif.C95_filter_output"
   ],
   "note": "For every program over the library (C95_limits), and for what the filter sends (C95_filter_output)."
  },
  {
   "property": "C96",
   "status": "partial",
   "theorems": [
    "Verif.C96_stack_partial",
    "Verif.C96_stack_grows_false"
   ],
   "note": "The stack's depth is exactly the number of failed calls (C96_stack_partial); unbounded for a script without process_log (C96_stack_grows_false)."
  },
  {
   "property": "C97",
   "status": "partial",
   "theorems": [
    "Verif.C97_tokens",
    "Verif.C97_all_or_nothing",
    "Verif.C97_tokens_false",
    "Verif.C97_not_forgotten_partial",
    "Verif.C97_accepts_all",
    "Verif.C97_handlers",
    "Verif.C97_joined",
    "Verif.C97_no_panic",
    "Verif.C97_accept_error_false",
    "Verif.C97_starved_false"
   ],
   "note": "No waiting client is forgotten while its listener is registered, every accepted connection has its own thread, ended threads are joined, no panic on tokens (fewer than 2048 addresses). False of the code: one unexpected accept error (e.g. too many open files) deregisters the listener for ever; endless connections at one address keep the loop from everything else, including a shutdown; at 2048 addresses tokens collide."
  },
  {
   "property": "C98",
   "status": "partial",
   "theorems": [
    "Verif.C98_text_partial",
    "Verif.C98_long_datagram_false",
    "Verif.C98_order",
    "Verif.C98_not_forgotten_partial",
    "Verif.C98_read_error_false",
    "Verif.C98_bound",
    "Verif.C98_lookup_false"
   ],
   "note": "Conservation and order for every schedule; no datagram is forgotten while no read fails; the text handed to the parser is the whole datagram up to 16250 bytes (C98_text_partial). False of the code: a longer datagram is cut without notice and the rest is parsed as something else (C98_long_datagram_false); after a read error the datagrams that wait are not read until another arrives; a failed look-up leaves a source without sockets running."
  },
  {
   "property": "C99",
   "status": "partial",
   "theorems": [
    "Verif.C99_fresh",
    "Verif.C99_asked",
    "Verif.C99_in_order",
    "Verif.C99_exclusive",
    "Verif.C99_not_blocked",
    "Verif.C99_stops",
    "Verif.C99_serves",
    "Verif.C99_healthy_partial",
    "Verif.C99_busy_false",
    "Verif.C99_poisoned_false",
    "Verif.C99_unbound_false"
   ],
   "note": "Proved for every schedule: freshness and atomicity of answers (C99_fresh), order (C99_in_order), mutual exclusion, bounded delay, at most one answer after shutdown; no panic under the conditions named in C99_healthy_partial. False: a scrape during an insertion is answered without metrics (C99_busy_false); a panic in an insertion leaves a server that answers nothing for ever (C99_poisoned_false); an address that cannot be bound kills only the server thread, and the sink panics at shutdown (C99_unbound_false)."
  },
  {
   "property": "C100",
   "status": "partial",
   "theorems": [
    "Verif.C100_reports",
    "Verif.C100_delay",
    "Verif.C100_json",
    "Verif.C100_influx_partial",
    "Verif.C100_influx_attempts_false",
    "Verif.C100_wavefront_partial",
    "Verif.C100_valve",
    "Verif.C100_wavefront_set_false",
    "Verif.C100_elastic_items",
    "Verif.C100_elastic_refused",
    "Verif.C100_elastic_send_false",
    "Verif.C100_prometheus_partial",
    "Verif.C100_prometheus_delay_false",
    "Verif.C100_kafka",
    "Verif.C100_send",
    "Verif.C100_statsd_partial",
    "Verif.C100_statsd_utf8_false",
    "Verif.C100_statsd_empty_false",
    "Verif.C100_graphite_partial",
    "Verif.C100_graphite_telemetry_false",
    "Verif.C100_native_partial",
    "Verif.C100_native_lost_false",
    "Verif.C100_avro",
    "Verif.C100_never_false"
   ],
   "note": "Proved: reports add up to the additions of all calls however they interleave (C100_reports); delay filter, JSON filter, Wavefront valve, Elasticsearch items and refusals. In part: InfluxDB successes and failures, Wavefront kinds other than Set, statsd, Graphite, native, Prometheus. False: InfluxDB attempts add the number of failures so far, not one each (C100_influx_attempts_false); gauges of Wavefront are counted as sums and 'set' never (C100_wavefront_set_false); requests that cannot be sent to Elasticsearch are counted nowhere; datagrams that are not UTF-8 are counted nowhere, and an empty one is good or bad depending on its predecessor; Graphite's telemetry.received counts lines; an oversized native payload loses its connection uncounted; Prometheus delays are in tenths of a millisecond; three names are never counted at all (C100_never_false)."
  },
  {
   "property": "C101",
   "status": "partial",
   "theorems": [
    "Verif.C101_messages",
    "Verif.C101_keys_differ",
    "Verif.C101_order_partial",
    "Verif.C101_order_false"
   ],
   "note": "Messages, headers, keys and first submissions proved for every history with a broker that hands back what was submitted (C101_messages, C101_keys_differ); the order if nothing is retried (C101_order_partial). False: a retried message is published after a later one of the same ordering value (C101_order_false)."
  },
  {
   "property": "C102",
   "status": "partial",
   "theorems": [
    "Verif.C102_waits_only_for_more",
    "Verif.C102_progress",
    "Verif.C102_ends",
    "Verif.C102_graphite_shutdown",
    "Verif.C102_one_more_poll",
    "Verif.C102_graphite_end_false",
    "Verif.C102_graphite_stall_false",
    "Verif.C102_graphite_lines_partial",
    "Verif.C102_payloads_exact_partial",
    "Verif.C102_frames_partial",
    "Verif.C102_split_prefix_false",
    "Verif.C102_graphite_exact_partial"
   ],
   "note": "Proved for the native and Avro handlers: waiting implies everything read and the connection open; they end after a close, reset or shutdown within a bounded number of their own steps; under every schedule they take exactly the payloads that arrived completely and end at a length that is too large (C102_frames_partial: length prefixes must not be cut, C102_split_prefix_false); for any bytes cut anywhere, exactly which payloads are taken and why they end (C102_payloads_exact_partial). Graphite: for ASCII the lines taken are exactly the finished lines that arrived; for any bytes exactly which lines are taken (C102_graphite_exact_partial); false in full: it stalls after a line that is not UTF-8 and never ends on close."
  },
  {
   "property": "C103",
   "status": "partial",
   "theorems": [
    "Verif.C103_lines_partial",
    "Verif.C103_text",
    "Verif.C103_not_text_false",
    "Verif.C103_cut_character_false",
    "Verif.C103_buffer",
    "Verif.C103_passes_partial",
    "Verif.C103_fair",
    "Verif.C103_backs_off_false",
    "Verif.C103_truncated",
    "Verif.C103_rewritten_false",
    "Verif.C103_refines",
    "Verif.C103_refines_pass",
    "Verif.C103_rotation_partial"
   ],
   "note": "Proved for every content and timing: the lines handed over by reads and by the server's passes are exactly the UTF-8, non-blank lines, in order and once, if every write ends with a line feed; on text the byte-level watcher returns what the text-level one of C37-C39 returns, through growth, truncation, rotation and removal; passes respect the byte limit; truncation to fewer bytes restarts; the length assertion never fails. False: lines that are not UTF-8 are lost and each costs a pass with doubling waits; writes cut inside a character lose the line; in-place rewrites of at least the old size are not noticed."
  },
  {
   "property": "C104",
   "status": "proved",
   "theorems": [
    "Verif.C104_store_is_collection",
    "Verif.C104_occupied_bins",
    "Verif.C104_reset_reset",
    "Verif.C104_reset_extremes"
   ],
   "note": ""
  },
  {
   "property": "C105",
   "status": "proved",
   "theorems": [
    "Verif.C105_exact",
    "Verif.C105_counts",
    "Verif.C105_race_false"
   ],
   "note": "C105_exact and C105_counts hold for every history in which files change between calls of the watcher; C105_race_false shows that the exception in the statement is needed: a line is delivered twice when the file is truncated inside a call."
  },
  {
   "property": "C106",
   "status": "partial",
   "theorems": [
    "Verif.C106_no_zero_runs",
    "Verif.C106_non_zero",
    "Verif.C106_no_unpadded_gaps",
    "Verif.C106_zero_points",
    "Verif.C106_zero_points_false",
    "Verif.C106_window_boundary",
    "Verif.C106_reportable_partial",
    "Verif.C106_reportable_false",
    "Verif.C106_insertion",
    "Verif.C106_find_match",
    "Verif.C106_within_partial",
    "Verif.C106_within_false"
   ],
   "note": "the randomised tests of wavefront.rs, prometheus.rs and telemetry.rs for all inputs; reporting every stored name is false after a purge, comparing by bins alone is false with different tag maps; both are proved on what the tests generate and beyond (no purge; equal tags)"
  },
  {
   "property": "C107",
   "status": "partial",
   "theorems": [
    "Verif.C107_readings",
    "Verif.C107_monotone",
    "Verif.C107_fresh",
    "Verif.C107_one_second",
    "Verif.C107_fresh_false"
   ],
   "note": "Readings, order, monotonicity and freshness from the first refresh on are proved for every schedule. False in full: until the clock's thread has woken for the first time the time stands still at that of its first use (C107_fresh_false), for as long as start-up takes."
  },
  {
   "property": "C108",
   "status": "partial",
   "theorems": [
    "Verif.C108_keep_count",
    "Verif.C108_collectd_scrub",
    "Verif.C108_frau_im_mond",
    "Verif.C108_no_panic",
    "Verif.C108_hyphen_false"
   ],
   "note": "Proved for every history of all three scripts. False of host names with a hyphen, which collectd_scrub.lua does not remove whole (C108_hyphen_false); the tests use another version of that script."
  },
  {
   "property": "C109",
   "status": "proved",
   "theorems": [
    "Verif.C109_known",
    "Verif.C109_unknown"
   ],
   "note": "Proved for every configuration. Consequence: four of the seven example configurations are refused at start-up, because the filters and sinks they forward to are of no known kind (Tests/Examples)."
  },
  {
   "property": "C110",
   "status": "partial",
   "theorems": [
    "Verif.C110_search_panics",
    "Verif.C110_other_widths",
    "Verif.C110_zero_width",
    "Verif.C110_every_width_false"
   ],
   "note": "Proved: no panic at any width other than 0 (any hash); at width 0, exactly which histories panic. False at width 0: C110_every_width_false."
  },
  {
   "property": "C111",
   "status": "proved",
   "theorems": [
    "Verif.C111_read",
    "Verif.C111_unambiguous",
    "Verif.C111_source"
   ],
   "note": "Exact: the parser accepts bytes iff they are a message of the grammar, and says what the grammar says. The protobuf crate underneath is modelled after the encoding's definition; groups (deprecated, unused by the schema) are left out of model and grammar."
  },
  {
   "property": "C112",
   "status": "proved",
   "theorems": [
    "Verif.C112_store_by_name",
    "Verif.C112_source",
    "Verif.C112_console",
    "Verif.C112_statsd_to_console",
    "Verif.C112_wavefront",
    "Verif.C112_statsd_to_wavefront",
    "Verif.C112_influxdb",
    "Verif.C112_statsd_to_influxdb"
   ],
   "note": "Under exact addition (class LawfulAdd), a hash that tells the series apart and a bin width other than zero (see C110). Packets with a line that cannot be read are outside the property: C41 shows that their points leak."
  },
  {
   "property": "C113",
   "status": "proved",
   "theorems": [
    "Verif.C113_sink",
    "Verif.C113_source",
    "Verif.C113_statsd_to_scrape"
   ],
   "note": "Counters only; names that reach the sink are the raw statsd names (a filter that renames is not in between)."
  },
  {
   "property": "C114",
   "status": "partial",
   "theorems": [
    "Verif.C114_store_partial",
    "Verif.C114_late_false",
    "Verif.C114_scrape_exact_partial",
    "Verif.C114_source",
    "Verif.C114_statsd_to_scrape_partial",
    "Verif.C114_prometheus_false"
   ],
   "note": "C114_prometheus_false and C114_late_false are findings: relative gauge reports are refused by the Prometheus sink once the gauge was set absolutely; a relative report older than the last flush is not applied."
  },
  {
   "property": "C115",
   "status": "partial",
   "theorems": [
    "Verif.C115_overflow",
    "Verif.C115_distance_partial",
    "Verif.C115_tests_partial",
    "Verif.C115_padding_times",
    "Verif.C115_padding_partial",
    "Verif.C115_bins",
    "Verif.C115_oldest_time_false",
    "Verif.C115_age_false"
   ],
   "note": "Exact for bins; for the other tests, times less than 2^63 s before the clock (padding: all times within 2^62 s of 1970). False beyond: a graphite client can write a time exactly 2^63 s before the clock, which passes every threshold in a release build and panics a debug build."
  },
  {
   "property": "C116",
   "status": "partial",
   "theorems": [
    "Verif.C116_same_tags",
    "Verif.C116_same_order_partial",
    "Verif.C116_split_false",
    "Verif.C116_order_false"
   ],
   "note": "Holds of histories that iterate equal tags in one order; false otherwise: comparison and hashing go through the iteration order of a hash map, so equal tags in different orders make two series."
  },
  {
   "property": "C117",
   "status": "partial",
   "theorems": [
    "Verif.C117_isolated",
    "Verif.C117_no_panic",
    "Verif.C117_sinks",
    "Verif.C117_clean_exit",
    "Verif.C117_source_false",
    "Verif.C117_filter_false",
    "Verif.C117_served_partial",
    "Verif.C117_returns_iff_partial",
    "Verif.C117_false",
    "Verif.C117_undelivered_false"
   ],
   "note": "Isolation, the process without panics, sinks and clean exits are proved for every schedule. False of the code: a panicked source ends the process at the next signal before any sink is waited for; panicked filters leave a sink that can be reached only through them, and with it main, waiting for ever. If only filters panic, exactly the sinks that some source reaches through filters that do not panic before they have sent a Shutdown return."
  },
  {
   "property": "C118",
   "status": "partial",
   "theorems": [
    "Verif.C118_acks",
    "Verif.C118_published_partial",
    "Verif.C118_full_queue_false",
    "Verif.C118_moments_partial"
   ],
   "note": "Per connection, acknowledgements = published + given up (C118_acks); all published if every error is recoverable and hands the message back (C118_published_partial over a flush, C118_moments_partial at every moment of every history). False: unrecoverable errors are acknowledged too, and a full local queue counts as one (C118_full_queue_false)."
  },
  {
   "property": "C119",
   "status": "partial",
   "theorems": [
    "Verif.C119_ends_partial",
    "Verif.C119_for_ever_false"
   ],
   "note": "Ends, within two turns more than the number of submissions answered before the recoverable errors stop, whatever the answers (C119_ends_partial). False for a broker that does not recover: after any number of turns every message is in flight still (C119_for_ever_false)."
  },
  {
   "property": "C120",
   "status": "proved",
   "theorems": [
    "Verif.C120_clients_to_messages",
    "Verif.C120_all_published"
   ],
   "note": "Through the whole path: socket, frame format, source, queue, run-loop, broker. Non-UTF-8 metadata keys make the sink panic (C66); after a retry the broker sees a client's messages in another order (C101); a stream that blocks inside a length prefix loses the connection (C34); unrecoverable errors lose messages (C118)."
  },
  {
   "property": "C121",
   "status": "partial",
   "theorems": [
    "Verif.C121_up_iff",
    "Verif.C121_ends",
    "Verif.C121_started",
    "Verif.C121_all_up_partial",
    "Verif.C121_script_false",
    "Verif.C121_pattern_false",
    "Verif.C121_statsd_false",
    "Verif.C121_prometheus_false",
    "Verif.C121_false"
   ],
   "note": "Exact: which configurations come up in which surroundings, with which status or panic the others end (C121_ends), and what is dead or deaf of those that come up. False of scripts that do not load, malformed file patterns, statsd hosts that cannot be looked up, and a taken Prometheus address: the process comes up without that component. What a dead filter or source then means for the events forwarded to it and for a later signal is C117 (the process hangs, or ends without waiting for its sinks)."
  },
  {
   "property": "C122",
   "status": "proved",
   "theorems": [
    "Verif.C122_each_file",
    "Verif.C122_independent",
    "Verif.C122_console"
   ],
   "note": "For lines appended whole between passes (what is sent of other histories of one file: C37_exact_partial, C38); the file system does not change within a pass. Files do not disturb each other for any history."
  },
  {
   "property": "C123",
   "status": "partial",
   "theorems": [
    "Verif.C123_elasticsearch_in_the_end_partial",
    "Verif.C123_console_in_the_end",
    "Verif.C123_native_in_the_end",
    "Verif.C123_influxdb_in_the_end",
    "Verif.C123_wavefront_in_the_end",
    "Verif.C123_kafka_in_the_end",
    "Verif.C123_several_console",
    "Verif.C123_several_native",
    "Verif.C123_several_influxdb",
    "Verif.C123_several_wavefront",
    "Verif.C123_several_kafka",
    "Verif.C123_alone",
    "Verif.C123_console",
    "Verif.C123_native",
    "Verif.C123_influxdb",
    "Verif.C123_wavefront",
    "Verif.C123_kafka",
    "Verif.C123_elasticsearch_partial",
    "Verif.C123_in_the_end",
    "Verif.C123_direct"
   ],
   "note": "For every configuration with distinct names, every wiring and every schedule: C123_alone (a sink of the process is where its own run-loop gets to on what its queue has accepted); C123_console, C123_native, C123_influxdb, C123_wavefront, C123_kafka (what has been written at exit, combining C93_at_exit_partial with C86), C123_direct (no filters), C123_in_the_end (with C92_exits_partial: the process does exit), C92_console_reopens (a console with bins of non-zero width and representable times never panics). C123_elasticsearch_partial: every line was part of a bulk request; missing that it was accepted, false by C86_elasticsearch_false. Sinks fed by several sources: all of it is false by C93_two_sources_false; what was sent before the signal has been written: C123_several_console, C123_several_native, C123_several_influxdb, C123_several_wavefront, C123_several_kafka. That the process exits is proved, rather than assumed, with sinks of every kind and any number of sources, for a run without full queues: C123_console_in_the_end, C123_native_in_the_end, C123_influxdb_in_the_end, C123_wavefront_in_the_end, C123_kafka_in_the_end. For Elasticsearch: C123_elasticsearch_in_the_end_partial."
  },
  {
   "property": "C124",
   "status": "proved",
   "theorems": [
    "Verif.C124_survives",
    "Verif.C124_metric",
    "Verif.C124_layout",
    "Verif.C124_size",
    "Verif.C124_distinct",
    "Verif.C124_later_fields"
   ],
   "note": "For every family below 4 GiB. The `protobuf` crate is external and modelled after the encoding's definition; the code keeps unknown fields and rewrites them, the model skips them."
  },
  {
   "property": "C125",
   "status": "proved",
   "theorems": [
    "Verif.C125_console_points",
    "Verif.C125_console",
    "Verif.C125_wavefront_points",
    "Verif.C125_wavefront",
    "Verif.C125_influxdb_points",
    "Verif.C125_influxdb"
   ],
   "note": "Under exact addition (class LawfulAdd), a hash that tells the series apart and a bin width other than zero (see C110). The sources forward straight to the sink: with filters in between the points of a name may be changed by the filter. That the packets came before the signal is stated as: the source sent nothing but Shutdown after the time T, and the signal comes at T or later."
  },
  {
   "property": "C126",
   "status": "partial",
   "theorems": [
    "Verif.C126_exact",
    "Verif.C126_partial",
    "Verif.C126_false"
   ],
   "note": "False of the code: a filter forwards Shutdown without releasing what it holds (C126_false). C126_exact: what is missing at exit is exactly events that came with at most tolerance pulses of the timer after them; C126_partial: nothing is missing if more pulses than that came between the last event and the first Shutdown."
  },
  {
   "property": "C127",
   "status": "proved",
   "theorems": [
    "Verif.C127_arrives",
    "Verif.C127_points",
    "Verif.C127_console",
    "Verif.C127_wavefront"
   ],
   "note": "C127_arrives: batch by batch, what the second process received from the first, with filters on both sides. C127_console and C127_wavefront: the totals. The link is one connection, given as what the receiving end sees (Carried); reconnections in between are not covered. An idle flush ends what the source takes from the connection: C55_until_idle_partial, C55_idle_false."
  },
  {
   "property": "C128",
   "status": "proved",
   "theorems": [
    "Verif.C128_reads",
    "Verif.C128_unique",
    "Verif.C128_written",
    "Verif.C128_lines",
    "Verif.C128_bulk"
   ],
   "note": "serde_json's writer and reader are modelled, not executed: that the crate escapes as Model/Json says is trusted. The reader of the body (Elasticsearch) is any program that follows the grammar of Spec/Json."
  },
  {
   "property": "C129",
   "status": "proved",
   "theorems": [
    "Verif.C129_parsed",
    "Verif.C129_payload"
   ],
   "note": "serde_json is modelled (Model/Json); the conversion of numbers is a parameter, assumed to give texts of numbers. rfc3339 is a parameter."
  },
  {
   "property": "C130",
   "status": "proved",
   "theorems": [
    "Verif.C130_date",
    "Verif.C130_time",
    "Verif.C130_unique",
    "Verif.C130_index",
    "Verif.C130_client_stops"
   ],
   "note": "chrono is modelled (Model/Date), not executed: that the crate computes and formats as Model/Date says is trusted."
  },
  {
   "property": "C131",
   "status": "proved",
   "theorems": [
    "Verif.C131_exact",
    "Verif.C131_when",
    "Verif.C131_client_stops"
   ],
   "note": "The panic itself is part of the claim. Conversion of numbers is a parameter."
  },
  {
   "property": "C132",
   "status": "proved",
   "theorems": [
    "Verif.C132_exact",
    "Verif.C132_monotone"
   ],
   "note": ""
  },
  {
   "property": "C133",
   "status": "partial",
   "theorems": [
    "Verif.C133_exact_partial",
    "Verif.C133_survives_partial",
    "Verif.C133_lost",
    "Verif.C133_isolated",
    "Verif.C133_lines",
    "Verif.C133_pattern_false",
    "Verif.C133_pipe_false",
    "Verif.C133_name_false"
   ],
   "note": "False of the code: a matched path that cannot be seeked in (a pipe) or whose name is not UTF-8 panics the source, a pipe nobody writes to blocks it for good (C133_pipe_false, C133_name_false), and the lines read in that turn from other files are lost (C133_lost); a pattern glob does not take panics it (C133_pattern_false). C133_exact_partial: exactly how the source ends, for all turns. C133_survives_partial: it survives everything else (directories, unreadable and vanishing files, contents that are not text). C133_isolated: while alive, each file's lines are those of a source that matches that file only. C133_lines: they are what the polling of C103 hands over."
  },
  {
   "property": "C134",
   "status": "partial",
   "theorems": [
    "Verif.C134_store",
    "Verif.C134_store_samples",
    "Verif.C134_source",
    "Verif.C134_source_binned",
    "Verif.C134_wavefront_partial",
    "Verif.C134_statsd_to_wavefront_partial",
    "Verif.C134_padding_false"
   ],
   "note": "False as claimed: with padding of summaries switched on each padding point counts a sample nobody reported (C134_padding_false). Exactly: written counts = readings + padding points; without that padding, readings. Console and InfluxDB print no counts of summaries; Prometheus keeps a sliding window (C50). For mapped names an empty new histogram is assumed of the crate, as a hypothesis."
  },
  {
   "property": "C135",
   "status": "proved",
   "theorems": [
    "Verif.C135_order",
    "Verif.C135_counters_grow",
    "Verif.C135_counts_grow",
    "Verif.C135_negative_false"
   ],
   "note": "Proved for the modelled sink and server with the sink's thread alive; a restart of cernan starts from nothing. C135_counters_grow takes the order of numbers as a hypothesis (reflexive, transitive, adding a number that is not negative does not make it smaller). C135_counts_grow assumes that merging two histograms adds their counts (LawfulSketch). A counter given a negative number does go down, which is outside the claim (C135_negative_false)."
  },
  {
   "property": "C136",
   "status": "proved",
   "theorems": [
    "Verif.C136_lines",
    "Verif.C136_points",
    "Verif.C136_scrape"
   ],
   "note": "Composition of the models of the graphite connection, the parser and the scrape machine. For ASCII text: characters of several bytes that are cut by the arrival of the bytes are lost (C70, C102). The points of the name are taken to reach the sink in the order in which they were sent (C101)."
  },
  {
   "property": "C137",
   "status": "proved",
   "theorems": [
    "Verif.C137_encoded",
    "Verif.C137_file_to_kafka"
   ],
   "note": "Composition of C122, C131 and C101. The channel between filter and sink is taken to keep the order (C14, C24). The conditions are the exact ones of C131 (times) and C101 (a broker that hands messages back)."
  },
  {
   "property": "C138",
   "status": "proved",
   "theorems": [
    "Verif.C138_no_duplicates",
    "Verif.C138_restarts",
    "Verif.C138_indexed_once"
   ],
   "note": "Ids are the random ones of new_v4, taken to be distinct and to be printed injectively; the server is a specification, not code."
  },
  {
   "property": "C139",
   "status": "partial",
   "theorems": [
    "Verif.C139_written_once",
    "Verif.C139_shown_partial",
    "Verif.C139_increments_false"
   ],
   "note": "False for counters: increments of one counter within a second overwrite each other in the database (C139_increments_false). Proved: requests count once, and the last value said for a series and time is shown."
  },
  {
   "property": "C140",
   "status": "proved",
   "theorems": [
    "Verif.C140_isolation",
    "Verif.C140_upstream"
   ],
   "note": "On the model of the process in which no thread panics (for that see C117); the main thread's waiting for other components to be joined does not reach back into the part."
  },
  {
   "property": "C141",
   "status": "proved",
   "theorems": [
    "Verif.C141_index",
    "Verif.C141_file_to_index"
   ],
   "note": "The server is any that says it has written a line only if it has (Truthful); documents are compared as a multiset."
  },
  {
   "property": "C142",
   "status": "proved",
   "theorems": [
    "Verif.C142_as_if_nothing_failed"
   ],
   "note": "A write that succeeds is taken to arrive. The proxy drops a line that a broken connection cuts; an example shows that this is needed."
  },
  {
   "property": "C143",
   "status": "proved",
   "theorems": [
    "Verif.C143_accounted",
    "Verif.C143_consumer_reads",
    "Verif.C143_at_least_once",
    "Verif.C143_file_to_consumer"
   ],
   "note": "The broker hands back what was submitted when it asks again (the sink can only submit what it is handed); metadata keys are distinct, as in a map; runs that do not panic (C66 says when)."
  },
  {
   "property": "C144",
   "status": "proved",
   "theorems": [
    "Verif.C144_exits_iff",
    "Verif.C144_pattern",
    "Verif.C144_script",
    "Verif.C144_returns_iff"
   ],
   "note": "Threads dead at start-up are those of C121; no other thread panics. That valves open again and the condition on Shutdowns are those of C92; a sink returns exactly if it can be reached through filters whose scripts load, and otherwise the process hangs."
  },
  {
   "property": "C145",
   "status": "proved",
   "theorems": [
    "Verif.C145_arrives",
    "Verif.C145_once",
    "Verif.C145_sink",
    "Verif.C145_process",
    "Verif.C145_twice_false"
   ],
   "note": "A write that the sink takes for a success is assumed to arrive; C80_unnoticed_false shows that the sink may be wrong about that.  Connections are taken in turn: how the source's threads interleave is not part of it.  C145_twice_false shows that a failed write that arrives whole is sent on twice."
  },
  {
   "property": "C146",
   "status": "partial",
   "theorems": [
    "Verif.C146_wavefront_partial",
    "Verif.C146_wavefront_reopens",
    "Verif.C146_kafka_partial",
    "Verif.C146_kafka_reopens",
    "Verif.C146_elasticsearch_partial",
    "Verif.C146_elasticsearch_accepted",
    "Verif.C146_elasticsearch_reopens",
    "Verif.C146_filters",
    "Verif.C146_sinks",
    "Verif.C146_end_to_end",
    "Verif.C146_flushed_partial",
    "Verif.C146_flushed_again_partial",
    "Verif.C146_filters_pass",
    "Verif.C146_console_partial",
    "Verif.C146_native_partial",
    "Verif.C146_influxdb_partial",
    "Verif.C146_native_reopens",
    "Verif.C146_influxdb_reopens",
    "Verif.C146_no_tick_false"
   ],
   "note": "Delivery is proved in full (C146_filters, C146_sinks, C146_end_to_end). Writing needs flushes, and is false of the code behind a programmable filter whose script has no tick function or one that fails: the filter keeps the timer's pulses, so sinks behind it are not flushed until something else gets through it (C146_no_tick_false). It is proved for chains of filters that pass pulses on (C146_flushed_partial, and with what is written C146_console_partial, C146_native_partial, C146_influxdb_partial, C146_wavefront_partial, C146_kafka_partial), which the delay, flush-boundary and JSON filters always do and the programmable filter does if tick never fails (C146_filters_pass). That the valve opens again is shown by C146_native_reopens, C146_influxdb_reopens, C146_kafka_reopens and C146_wavefront_reopens. Flushes come again and again (C146_flushed_again_partial). For Elasticsearch: C146_elasticsearch_partial (every line is in a request), C146_elasticsearch_accepted (in an accepted one, if requests fail or are accepted as a whole and do not fail for ever) and C146_elasticsearch_reopens."
  },
  {
   "property": "C147",
   "status": "proved",
   "theorems": [
    "Verif.C147_answered_iff",
    "Verif.C147_answered",
    "Verif.C147_unanswered",
    "Verif.C147_exact",
    "Verif.C147_no_channel",
    "Verif.C147_process"
   ],
   "note": "C147_answered_iff and C147_exact characterise the publishes that are answered, C147_answered gives sufficient conditions, C147_process shows that they are met by a source that forwards to a Kafka sink in a running process, C147_unanswered and C147_no_channel show that nothing else ends the wait."
  },
  {
   "property": "C148",
   "status": "proved",
   "theorems": [
    "Verif.C148_hangs",
    "Verif.C148_returns_iff",
    "Verif.C148_exits_iff",
    "Verif.C148_json",
    "Verif.C148_client"
   ],
   "note": "Of the machine of whole processes with panics; panics other than those of filters at what they read are excluded by the hypothesis Governed (C117 treats them). The description of the defect is part of the statement: a client can keep the process from stopping (C148_client)."
  },
  {
   "property": "C149",
   "status": "proved",
   "theorems": [
    "Verif.C149_aborts",
    "Verif.C149_ends",
    "Verif.C149_waited",
    "Verif.C149_line",
    "Verif.C149_client"
   ],
   "note": "Of the machine of whole processes with panics. Panics of sources are excluded by hypothesis (C117 treats them); panics of filters are allowed in C149_aborts as long as every sink stays served. C149_line is about the two sinks that write dates; the sinks' other panics are covered by C149_ends without saying which input causes them. The description of the defect is part of the statement."
  },
  {
   "property": "C150",
   "status": "proved",
   "theorems": [
    "Verif.C150_fate",
    "Verif.C150_sinks"
   ],
   "note": "Of the machine of whole processes with panics. C150_fate has no hypothesis but fairness and a signal; C150_sinks also assumes that no Shutdown is lost, valves reopen and main does not panic."
  },
  {
   "property": "C151",
   "status": "proved",
   "theorems": [
    "Verif.C151_isolated",
    "Verif.C151_stuck",
    "Verif.C151_aborts",
    "Verif.C151_joins_iff",
    "Verif.C151_ended",
    "Verif.C151_frame",
    "Verif.C151_clients"
   ],
   "note": "C151_isolated (while serving), C151_stuck, C151_aborts, C151_joins_iff, C151_ended, C151_frame, C151_clients (which bytes from which clients do it). This is the full effect of what C61 finds."
  },
  {
   "property": "C152",
   "status": "proved",
   "theorems": [
    "Verif.C152_accounts",
    "Verif.C152_bound",
    "Verif.C152_no_retries",
    "Verif.C152_never_dropped"
   ],
   "note": "C152_accounts (both bounds reached, see the examples), C152_bound, C152_no_retries (limit 0, exact), C152_never_dropped (limit 255; compare C53_limit_255_false)."
  },
  {
   "property": "C153",
   "status": "proved",
   "theorems": [
    "Verif.C153_restarts",
    "Verif.C153_at_most_once",
    "Verif.C153_missed_lost",
    "Verif.C153_all_iff",
    "Verif.C153_index",
    "Verif.C153_exactly_once_false",
    "Verif.C153_bytes",
    "Verif.C153_bytes_all"
   ],
   "note": "C153_restarts, C153_at_most_once, C153_missed_lost, C153_all_iff, C153_index; C153_bytes and C153_bytes_all for files of arbitrary bytes, read through the buffer; C153_exactly_once_false shows a case in which lines are lost."
  },
  {
   "property": "C154",
   "status": "proved",
   "theorems": [
    "Verif.C154_one_life",
    "Verif.C154_none_lost",
    "Verif.C154_in_order",
    "Verif.C154_repeats",
    "Verif.C154_exactly_once_iff",
    "Verif.C154_two_channels_false",
    "Verif.C154_published"
   ],
   "note": "C154_one_life, C154_none_lost, C154_in_order, C154_repeats, C154_exactly_once_iff, C154_published; C154_two_channels_false for a source that forwards to two acknowledging sinks."
  },
  {
   "property": "C155",
   "status": "proved",
   "theorems": [
    "Verif.C155_console",
    "Verif.C155_native",
    "Verif.C155_influxdb",
    "Verif.C155_elasticsearch",
    "Verif.C155_wavefront",
    "Verif.C155_kafka",
    "Verif.C155_source_console",
    "Verif.C155_source_native",
    "Verif.C155_source_influxdb"
   ],
   "note": "Console, native, InfluxDB, Elasticsearch (if each request failed altogether or was accepted in full), Wavefront and Kafka sinks within the whole process. A flush is one step of the model: the moments within a flush, and a sink whose flush never ends, are left out. What hopper keeps on disk over a restart is not modelled."
  },
  {
   "property": "C156",
   "status": "proved",
   "theorems": [
    "Verif.C156_history",
    "Verif.C156_healthy",
    "Verif.C156_reopens",
    "Verif.C156_counter",
    "Verif.C156_gauge",
    "Verif.C156_source",
    "Verif.C156_statsd",
    "Verif.C156_graphite",
    "Verif.C156_in_the_end"
   ],
   "note": "C156_history: any points; C156_counter, C156_gauge, C156_source, C156_statsd, C156_graphite (one client) and C156_in_the_end: points of the name never beyond the age threshold at any reading of the clock, fewer than 2^64-1 calls, and summaries that have a greatest value. C156_healthy: when the sink's thread has not panicked; C156_reopens: the valve is then always open, so C92 and C146 apply. The scrape is one that finds the lock free; the server thread itself is C99."
  }
 ]
}