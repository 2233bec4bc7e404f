{
 "claims": [
  {
   "property": "C01",
   "status": "proved",
   "theorems": [
    "Verif.Ticks.C01_flags_preserve_timestamp"
   ],
   "note": ""
  },
  {
   "property": "C02",
   "status": "proved",
   "theorems": [
    "Verif.Ticks.C02_unixNano_roundtrip",
    "Verif.Ticks.C02_time_roundtrip",
    "Verif.Ticks.C02_fromTime",
    "Verif.Ticks.C02_intervals"
   ],
   "note": ""
  },
  {
   "property": "C03",
   "status": "partial",
   "theorems": [
    "Verif.Ticks.C03_full_range_false",
    "Verif.Ticks.C03_fromTime_false",
    "Verif.Ticks.C03_toTime_exact_range_partial",
    "Verif.Ticks.C03_fromTime_partial",
    "Verif.Ticks.C03_fromTime_before_epoch_wrong"
   ],
   "note": "The property is false of the code: ToTime is right exactly within 1677..2262 and FromTime is wrong before 1970. Both negations are proved with witnesses, the partial theorems give the exact range."
  },
  {
   "property": "C04",
   "status": "proved",
   "theorems": [
    "Verif.Guid.C04_roundtrip",
    "Verif.Guid.C04_fromBytes",
    "Verif.Guid.C04_swap_involution",
    "Verif.Guid.C04_equal"
   ],
   "note": ""
  },
  {
   "property": "C05",
   "status": "proved",
   "theorems": [
    "Verif.Guid.C05_compare_is_number_order",
    "Verif.Guid.C05_total_order"
   ],
   "note": ""
  },
  {
   "property": "C06",
   "status": "proved",
   "theorems": [
    "Verif.HashSet.C06_history_refines",
    "Verif.HashSet.C06_symmetric_counts",
    "Verif.HashSet.C06_symmetric_duplicates_false"
   ],
   "note": "SymmetricExceptWith is the set operation for arguments without repetitions; with repetitions C06_symmetric_counts states the effect exactly."
  },
  {
   "property": "C07",
   "status": "partial",
   "theorems": [
    "Verif.HashSet.C07_overlaps_subset",
    "Verif.HashSet.C07_properSuperset_empty_false",
    "Verif.HashSet.C07_duplicates_false",
    "Verif.HashSet.C07_setEquals_accepts_smaller",
    "Verif.HashSet.C07_relations_nodup_partial",
    "Verif.HashSet.C07_relations_exact"
   ],
   "note": "False of the code for repeated elements and the empty set (negations proved); the partial theorem covers slices without repetitions, and C07_relations_exact says what is decided for every slice."
  },
  {
   "property": "C08",
   "status": "proved",
   "theorems": [
    "Verif.Format.C08_uint64",
    "Verif.Format.C08_int64"
   ],
   "note": "Integer formatters; floats are in C93."
  },
  {
   "property": "C09",
   "status": "partial",
   "theorems": [
    "Verif.Thread.C09_thread_partial",
    "Verif.Thread.C09_no_overlap",
    "Verif.Thread.C09_once_per_start",
    "Verif.Thread.C09_join_waits",
    "Verif.Thread.C09_join_after_start_false",
    "Verif.Thread.C09_join_during_execution_false",
    "Verif.Thread.C09_join_iff",
    "Verif.Thread.C09_join_started_iff",
    "Verif.Thread.C09_no_deadlock"
   ],
   "note": "No overlap and once per start for all schedules. False of the code: Join can return before the execution started by an earlier Start (witness schedules proved); the partial theorem says when it does wait. C09_join_iff says exactly when a Join waits; C09_no_deadlock that every Join and every start that has passed its check can go on."
  },
  {
   "property": "C10",
   "status": "proved",
   "theorems": [
    "Verif.Tssc.C10_codes_roundtrip"
   ],
   "note": ""
  },
  {
   "property": "C11",
   "status": "proved",
   "theorems": [
    "Verif.Tssc.C11_adaptive_state"
   ],
   "note": ""
  },
  {
   "property": "C12",
   "status": "proved",
   "theorems": [
    "Verif.Tssc.C12_uint32_roundtrip",
    "Verif.Tssc.C12_uint64_roundtrip"
   ],
   "note": ""
  },
  {
   "property": "C13",
   "status": "proved",
   "theorems": [
    "Verif.Tssc.C13_stream_roundtrip",
    "Verif.Tssc.C13_every_sequence_sendable"
   ],
   "note": "The publisher side is a specification (Tssc/Spec.lean) that may choose any applicable code words."
  },
  {
   "property": "C14",
   "status": "partial",
   "theorems": [
    "Verif.Tssc.C14_truncated_block_panics",
    "Verif.Tssc.C14_no_panic_partial",
    "Verif.Tssc.C14_loop_finite",
    "Verif.Tssc.C14_bounded_measurements",
    "Verif.Tssc.C14_panics_iff_cut",
    "Verif.Tssc.C14_block_panics_iff_cut",
    "Verif.Tssc.C14_same_with_more",
    "Verif.Tssc.C14_cut_block_prefix"
   ],
   "note": "Never-a-crash is false: a one-byte block panics. Proved: exactly the blocks that end in the middle of a measurement panic, after the measurements before it came out as they would from the whole block; no panic while 27 bytes are unread, every measurement consumes input, finitely many per block."
  },
  {
   "property": "C15",
   "status": "proved",
   "theorems": [
    "Verif.Sic.C15_cache_decode"
   ],
   "note": "Every cache image, with byte-order option and trailing bytes; later duplicates win."
  },
  {
   "property": "C16",
   "status": "partial",
   "theorems": [
    "Verif.Sic.C16_index_roundtrip",
    "Verif.Sic.C16_misses",
    "Verif.Sic.C16_reassigned_index_false",
    "Verif.Sic.C16_signal_roundtrip_partial",
    "Verif.Sic.C16_exact"
   ],
   "note": "Index lookups and misses in full. The reverse lookup is false when an index is reassigned (witness proved); proved when indices and signals correspond one to one. C16_exact says for every history what each lookup gives, what is counted (signals), and exactly when the reverse lookup succeeds."
  },
  {
   "property": "C17",
   "status": "partial",
   "theorems": [
    "Verif.Sic.C17_truncated_cache_panics",
    "Verif.Sic.C17_corrupt_cache_partial",
    "Verif.Sic.C17_outcome"
   ],
   "note": "False of the code: a truncated cache panics (witness proved). The partial theorem: short and over-announced buffers are errors, and every accepted buffer is the exact wire image of the records delivered. C17_outcome says for every buffer which of accept, error and panic happens."
  },
  {
   "property": "C18",
   "status": "proved",
   "theorems": [
    "Verif.Compact.C18_to_compact",
    "Verif.Compact.C18_to_full",
    "Verif.Compact.C18_classes_disjoint",
    "Verif.Compact.C18_roundtrip",
    "Verif.Compact.C18_full_closure"
   ],
   "note": "All compact bytes and all full flag words."
  },
  {
   "property": "C19",
   "status": "proved",
   "theorems": [
    "Verif.Compact.C19_decode_wire",
    "Verif.Compact.C19_format",
    "Verif.Compact.C19_stale_mark_false"
   ],
   "note": "All four time formats, with what follows in the buffer arbitrary. The excluded case (stale offset mark without base time) is shown to break decoding by C19_stale_mark_false."
  },
  {
   "property": "C20",
   "status": "partial",
   "theorems": [
    "Verif.Compact.C20_truncated_panics",
    "Verif.Compact.C20_panic_exactly_partial",
    "Verif.Compact.C20_consumed_beyond_end"
   ],
   "note": "False of the code: Decode panics when the time bytes are missing (witness proved). The partial theorem characterises exactly which buffers give an error and which panic."
  },
  {
   "property": "C21",
   "status": "partial",
   "theorems": [
    "Verif.Session.C21_framing_partial",
    "Verif.Session.C21_all_or_nothing",
    "Verif.Session.C21_large_payload_panics"
   ],
   "note": "False of the code for payloads of 32764 bytes or more, which panic (proved). The partial theorem: all command sequences with smaller payloads."
  },
  {
   "property": "C22",
   "status": "partial",
   "theorems": [
    "Verif.Session.C22_chunking_partial",
    "Verif.Session.C22_incomplete_tail",
    "Verif.Session.C22_unsubscribe_loses",
    "Verif.Session.C22_unsubscribe_false"
   ],
   "note": "Every chunking, any number of packets. False while Unsubscribe runs: the header is dropped and the stream gets out of step (proved)."
  },
  {
   "property": "C23",
   "status": "partial",
   "theorems": [
    "Verif.Session.C23_gate_partial",
    "Verif.Session.C23_handshake",
    "Verif.Session.C23_first_connection_false",
    "Verif.Session.C23_noop_false",
    "Verif.Session.C23_short_packet_panics"
   ],
   "note": "False of the code on the first connection, for NoOP and for packets shorter than 6 bytes (proved); the partial theorem covers every reconnection and all other packets."
  },
  {
   "property": "C24",
   "status": "partial",
   "theorems": [
    "Verif.Session.C24_compact_partial",
    "Verif.Session.C24_out_of_sequence_false",
    "Verif.Session.C24_missing_cache_false",
    "Verif.Session.C24_unknown_version_false",
    "Verif.Session.C24_cut_false"
   ],
   "note": "False of the code for packets out of sequence, without cache or of unknown version, which deliver left-over or made-up measurements (proved). The partial theorem covers well-formed compact packets; well-formed TSSC packets are in C25_sequence. A compact packet that ends early delivers what it has and then measurements it does not have (C24_cut_false)."
  },
  {
   "property": "C25",
   "status": "proved",
   "theorems": [
    "Verif.Session.C25_sequence",
    "Verif.Session.C25_unexpected_untouched"
   ],
   "note": "Sessions of any length with strays, losses and restarts; deliveries equal what was sent."
  },
  {
   "property": "C26",
   "status": "proved",
   "theorems": [
    "Verif.Session.C26_measurements",
    "Verif.Session.C26_since_subscription",
    "Verif.Session.C26_bytes",
    "Verif.Session.C26_start",
    "Verif.Session.C26_refused_packet"
   ],
   "note": "All histories of packets, Subscribe and Unsubscribe. Packets refused for their size before the handshake count with their header only."
  },
  {
   "property": "C27",
   "status": "proved",
   "theorems": [
    "Verif.Session.C27_base_times"
   ],
   "note": "Any history, both resolutions; the last update before the packet decides."
  },
  {
   "property": "C28",
   "status": "partial",
   "theorems": [
    "Verif.Session.C28_update",
    "Verif.Session.C28_data_uses_named_half",
    "Verif.Session.C28_version1_partial",
    "Verif.Session.C28_version1_index_false"
   ],
   "note": "Versions after 1 in full. Under version 1 a data packet with the cache-index bit is decoded with a second, empty cache (proved), so the single-cache part is false."
  },
  {
   "property": "C29",
   "status": "partial",
   "theorems": [
    "Verif.Session.C29_content_never_delivered",
    "Verif.Session.C29_in_order_partial",
    "Verif.Session.C29_out_of_order_false",
    "Verif.Session.C29_repeated_false",
    "Verif.Session.C29_new_connection_partial",
    "Verif.Session.C29_stale_blocks_false",
    "Verif.Session.C29_any_order"
   ],
   "note": "False of the code: contents are never delivered, out-of-order blocks are confirmed and lost, a repeated block makes the cache grow to 2^32 entries, blocks waiting at the end of a connection show up in the next (all proved). The partial theorem: blocks in order, each confirmed and delivered once with its signal. What is confirmed and handed over for blocks in any order, repeated or with gaps is given exactly (C29_any_order)."
  },
  {
   "property": "C30",
   "status": "partial",
   "theorems": [
    "Verif.Session.C30_tokens_partial",
    "Verif.Session.C30_nothing_else",
    "Verif.Session.C30_short_panics"
   ],
   "note": "Any history; false only for responses with fewer than four payload bytes, which panic (proved)."
  },
  {
   "property": "C31",
   "status": "partial",
   "theorems": [
    "Verif.Modes.C31_modes_partial",
    "Verif.Modes.C31_old_modes_partial",
    "Verif.Modes.C31_version_false",
    "Verif.Modes.C31_ambiguous_false",
    "Verif.Modes.C31_wire",
    "Verif.Modes.C31_encoding"
   ],
   "note": "False of the code for versions below 10: two obsolete compression flags overlap the version field (proved for all of them). All other fields and all versions from 10 on are proved."
  },
  {
   "property": "C32",
   "status": "partial",
   "theorems": [
    "Verif.Modes.C32_settings_partial",
    "Verif.Modes.C32_interval_text",
    "Verif.Modes.C32_nan_filter_false",
    "Verif.Modes.C32_wire"
   ],
   "note": "False of the code for the NaN filter, whose setting lacks its equals sign (proved). All other settings read back, for all texts."
  },
  {
   "property": "C33",
   "status": "partial",
   "theorems": [
    "Verif.Connector.C33_retry_limit_partial",
    "Verif.Connector.C33_no_interval_never_stops_false",
    "Verif.Connector.C33_second_connect_never_dials",
    "Verif.Connector.C33_unreachable_exact",
    "Verif.Connector.C33_no_interval_false",
    "Verif.Connector.C33_unlimited",
    "Verif.Connector.C33_negative_never_dials"
   ],
   "note": "False of the code: with a retry interval of 0 or less nothing is counted and the attempts never stop (proved); and after the limit was hit once a further connect does not dial at all (proved). The partial theorem gives the exact number of attempts for positive intervals. Every setting is covered for an unreachable host: positive limits with an interval (C33_unreachable_exact), without (C33_no_interval_false), no limit (C33_unlimited), other negative limits (C33_negative_never_dials)."
  },
  {
   "property": "C34",
   "status": "partial",
   "theorems": [
    "Verif.Connector.C34_backoff_partial",
    "Verif.Connector.C34_wait_bounds",
    "Verif.Connector.C34_wait_value",
    "Verif.Connector.C34_decreases_after_13_false",
    "Verif.Connector.C34_overflow_decreases_false",
    "Verif.Connector.C34_monotone_iff"
   ],
   "note": "Positive and bounded for all inputs. Monotony is false: the exponent restarts after attempt 13 and the product overflows 32 bits (witnesses proved); the partial theorem gives the range where it holds. C34_monotone_iff says exactly when the delays never decrease."
  },
  {
   "property": "C35",
   "status": "partial",
   "theorems": [
    "Verif.Connector.Cancel.C35_cancel_partial",
    "Verif.Connector.Cancel.C35_no_dial_after_cancel_in_wait",
    "Verif.Connector.Cancel.C35_joined_cancel_is_final",
    "Verif.Connector.Cancel.C35_joining_progress",
    "Verif.Connector.Cancel.C35_cancel_deadlock_false",
    "Verif.Connector.Cancel.C35_dial_after_cancel_returned_false",
    "Verif.Connector.Cancel.C35_connect_hangs_false",
    "Verif.Connector.Cancel.C35_attempts",
    "Verif.Connector.Cancel.C35_unlimited_false",
    "Verif.Connector.Cancel.C35_one_more",
    "Verif.Connector.Cancel.C35_none_more"
   ],
   "note": "False of the code in general: schedules with a deadlocked Cancel and with a dial after Cancel returned are exhibited. Proved: a cancel that meets the reconnect goroutine waiting, and a cancel that joined it, is final. C35_attempts says exactly, for every state with the flag set, how many attempts can follow: any number where the sequence still clears the flag, one where it is past its last look at it, none anywhere else."
  },
  {
   "property": "C36",
   "status": "partial",
   "theorems": [
    "Verif.Sync.Lifecycle.C36_callbacks_partial",
    "Verif.Sync.Lifecycle.C36_subscribed_partial",
    "Verif.Sync.Lifecycle.C36_granted",
    "Verif.Sync.Lifecycle.C36_subscribed_while_disconnected_false",
    "Verif.Sync.Lifecycle.C36_terminated_without_connection_false",
    "Verif.Sync.Lifecycle.C36_terminated_twice_false",
    "Verif.Sync.Lifecycle.C36_disconnect_again_false"
   ],
   "note": "False of the code: a late Subscribe answer leaves the flag set after the disconnect, and the terminated callback can fire without a connection or twice for one (witness schedules proved). Proved for all schedules: at most one callback per Disconnect call or failed read, and the flag stays clear unless an answer was already past the tests."
  },
  {
   "property": "C37",
   "status": "partial",
   "theorems": [
    "Verif.Sync.Registry.C37_later_calls_partial",
    "Verif.Sync.Registry.C37_sequential",
    "Verif.Sync.Registry.C37_same_record_false"
   ],
   "note": "False of the code: two concurrent first look-ups of a signal can get different records (witness schedule proved). Calls begun after some look-up of the signal has returned all get the registered record, for all schedules."
  },
  {
   "property": "C38",
   "status": "partial",
   "theorems": [
    "Verif.Sync.Reader.C38_in_order_partial",
    "Verif.Sync.Reader.C38_prefix",
    "Verif.Sync.Reader.C38_close_crashes_false",
    "Verif.Sync.Reader.C38_closed_nil_false"
   ],
   "note": "In order, without loss or duplicates, for all schedules without Close. Close while a batch is being delivered makes the producer panic, and reads after Close give nil (proved)."
  },
  {
   "property": "C39",
   "status": "partial",
   "theorems": [
    "Verif.Sync.Callback.C39_flat_partial",
    "Verif.Sync.Callback.C39_nested_sync_false",
    "Verif.Sync.Callback.C39_assign_in_callback_false"
   ],
   "note": "False of the code: nested read locking with a waiting writer deadlocks, as does assigning a callback from a callback (witness schedules proved). Programs without nesting never deadlock (all schedules, any number of goroutines)."
  },
  {
   "property": "C40",
   "status": "partial",
   "theorems": [
    "Verif.Table.Lookup.C40_column",
    "Verif.Table.Lookup.C40_column_by_name",
    "Verif.Table.Lookup.C40_column_unknown",
    "Verif.Table.Lookup.C40_index_partial",
    "Verif.Table.Lookup.C40_column_index_partial",
    "Verif.Table.Lookup.C40_index_false",
    "Verif.Table.Lookup.C40_table",
    "Verif.Table.Lookup.C40_remove",
    "Verif.Table.Lookup.C40_table_unknown"
   ],
   "note": "All sequences of additions and all names; lookups in full. False of the code: adding a column object twice, or to two tables, overwrites its index (proved); the partial theorems cover columns added once."
  },
  {
   "property": "C41",
   "status": "partial",
   "theorems": [
    "Verif.Table.C41_rows_where_partial",
    "Verif.Table.C41_zero_false",
    "Verif.Table.C41_select_zero_false"
   ],
   "note": "All tables, predicates and limits but 0. False of the code for limit 0: RowsWhere gives one row, DataTable.Select gives all (proved)."
  },
  {
   "property": "C42",
   "status": "partial",
   "theorems": [
    "Verif.Table.C42_select_partial",
    "Verif.Table.C42_sublist",
    "Verif.Table.C42_not_boolean",
    "Verif.Table.C42_null_false",
    "Verif.Table.C42_exact",
    "Verif.Table.C42_ordered",
    "Verif.Table.C42_outcome_unique"
   ],
   "note": "All tables and expressions whose result is of type Boolean. False of the code: comparing with a null yields a null that is not Boolean and Select fails (proved). C42_exact and C42_ordered give the outcome for every expression, errors and panics included, and C42_outcome_unique that there is one only."
  },
  {
   "property": "C43",
   "status": "partial",
   "theorems": [
    "Verif.Table.C43_select_partial",
    "Verif.Table.select_sorted",
    "Verif.Table.C43_top_false"
   ],
   "note": "False of the code: TOP cuts before sorting (proved with any sorting function). The partial theorem covers limits that do not cut; select_sorted says what is returned in general. sort.Slice enters through what it promises."
  },
  {
   "property": "C44",
   "status": "partial",
   "theorems": [
    "Verif.Table.C44_order_partial",
    "Verif.Table.C44_sorted_partial",
    "Verif.Table.C44_nulls_first",
    "Verif.Table.C44_first_term_decides",
    "Verif.Table.C44_boolean_order",
    "Verif.Table.C44_nan_false",
    "Verif.Table.C44_stored_type_false",
    "Verif.Lib.go_orders"
   ],
   "note": "All term lists, all column types, rows that can be read without a panic, NaN-free floats (with NaN it fails, proved). A value stored with the wrong type makes the sort panic (proved). The laws of order are proved of the modelled libraries."
  },
  {
   "property": "C45",
   "status": "partial",
   "theorems": [
    "Verif.Expr.C45_operator_null",
    "Verif.Expr.C45_expression_null",
    "Verif.Expr.C45_connective_null",
    "Verif.Expr.C45_unary_null",
    "Verif.Expr.C45_is_null",
    "Verif.Expr.C45_left_null_partial",
    "Verif.Expr.C45_right_null_false",
    "Verif.Table.C42_null_false",
    "Verif.Expr.C45_joined_false"
   ],
   "note": "Null operands give null for every operator of the arithmetic, integer, comparison and Boolean groups. False for a null shift amount, which is an error, and for Select with a null result that is not Boolean, which fails (both proved). The null a comparison gives is not Boolean, so that AND and OR refuse it (proved)."
  },
  {
   "property": "C46",
   "status": "partial",
   "theorems": [
    "Verif.Expr.C46_derive_total",
    "Verif.Expr.C46_promotion",
    "Verif.Expr.C46_symmetric_partial",
    "Verif.Expr.C46_symmetric_false",
    "Verif.Expr.C46_result_type",
    "Verif.Expr.C46_panic_iff_partial",
    "Verif.Expr.C46_no_panic_false"
   ],
   "note": "The whole table of types, all values. False of the code: Guid and DateTime with String are accepted one way round only, and a Boolean meeting an Int32 or a zero divisor panics (proved, with the exact set of panics)."
  },
  {
   "property": "C47",
   "status": "partial",
   "theorems": [
    "Verif.Expr.C47_consistent_partial",
    "Verif.Expr.C47_exact_equality",
    "Verif.Expr.C47_exact_false",
    "Verif.Expr.C47_fold_false",
    "Verif.Lib.go_ordered",
    "Verif.Lib.C47_consistent_go",
    "Verif.Lib.C139_consistent_partial",
    "Verif.Lib.C139_consistent_false"
   ],
   "note": "For values of one type, assuming the order of decimals, dates and non-NaN floats is total. Exact equality of text disagrees with the case-insensitive order, and EqualFold may disagree with ToUpper (proved). That order is proved of IEEE 754 doubles and shopspring decimals as modelled in Lib, so for values other than texts nothing is assumed. For texts see C139: nothing is assumed when one is ASCII and the other has neither a dotless i nor a Kelvin sign."
  },
  {
   "property": "C48",
   "status": "proved",
   "theorems": [
    "Verif.Expr.C48_in_iff",
    "Verif.Expr.C48_stops_at_first_match",
    "Verif.Expr.C48_true_only",
    "Verif.Expr.C48_failure",
    "Verif.Expr.C48_null"
   ],
   "note": "All expressions and lists of any length; also which failure wins when a comparison is not possible."
  },
  {
   "property": "C49",
   "status": "partial",
   "theorems": [
    "Verif.Expr.C49_like_partial",
    "Verif.Expr.C49_only_wildcards",
    "Verif.Expr.C49_not_like",
    "Verif.Expr.C49_inner_wildcard",
    "Verif.Expr.C49_no_wildcard_false",
    "Verif.Expr.C49_empty_pattern_false"
   ],
   "note": "All texts and all patterns with a wildcard at an end. False of the code: a pattern without wildcard matches nothing, the empty pattern matches everything (both proved for all texts)."
  },
  {
   "property": "C50",
   "status": "partial",
   "theorems": [
    "Verif.Expr.C50_iif_partial",
    "Verif.Expr.C50_second_argument_decides",
    "Verif.Expr.C50_condition_ignored",
    "Verif.Expr.C50_iif_false"
   ],
   "note": "False of the code: the second argument is tested and the first has no influence (proved for all expressions). The partial theorem covers a second argument equal to the condition."
  },
  {
   "property": "C51",
   "status": "partial",
   "theorems": [
    "Verif.Expr.C51_power_partial",
    "Verif.Expr.C51_exponent_ignored",
    "Verif.Expr.C51_exponent_ignored_decimal",
    "Verif.Expr.C51_power_false"
   ],
   "note": "False of the code: the exponent used is the base (proved for all values). The partial theorem covers an exponent equal to the base and nulls."
  },
  {
   "property": "C52",
   "status": "partial",
   "theorems": [
    "Verif.Expr.C52_coalesce",
    "Verif.Expr.C52_coalesce_null",
    "Verif.Expr.C52_max_of",
    "Verif.Expr.C52_min_of",
    "Verif.Expr.C52_is_null_partial",
    "Verif.Expr.C52_is_null_false"
   ],
   "note": "Coalesce, MaxOf and MinOf in full, lists of any length, the orders of decimals, floats and dates being strict. IsNull with a null default is refused even when the test value is not null (proved)."
  },
  {
   "property": "C53",
   "status": "partial",
   "theorems": [
    "Verif.Expr.C53_substr_partial",
    "Verif.Expr.C53_substr_false",
    "Verif.Expr.C53_index_of",
    "Verif.Expr.C53_last_index_of",
    "Verif.Expr.C53_index_of_default",
    "Verif.Expr.C53_nth_index_of_partial",
    "Verif.Expr.C53_nth_index_of_false",
    "Verif.Expr.C53_split_partial",
    "Verif.Expr.C53_split_no_delimiter_false",
    "Verif.Expr.C53_split_false",
    "Verif.Expr.C53_str_count",
    "Verif.Expr.C53_str_count_empty",
    "Verif.Expr.C53_str_cmp",
    "Verif.Expr.C53_str_cmp_null",
    "Verif.Expr.C53_no_panic"
   ],
   "note": "IndexOf, LastIndexOf, StrCount and StrCmp in full for texts below 2^31 bytes. False of the code: SubStr panics when index plus length overflows, NthIndexOf panics for an empty test text, Split loses text without delimiter and mishandles a leading or overlapping delimiter (proved). What Reverse gives is in C74."
  },
  {
   "property": "C54",
   "status": "proved",
   "theorems": [
    "Verif.Table.Parser.C54_union",
    "Verif.Table.Parser.C54_succeeds",
    "Verif.Table.Parser.C54_filter_statement",
    "Verif.Table.Parser.C54_expression_statement",
    "Verif.Table.Parser.C54_guid_statement",
    "Verif.Table.Parser.C54_key_statement",
    "Verif.Table.Parser.C54_tag_statement"
   ],
   "note": "All statement lists, tables, settings of TOP and ORDER BY and of the tracking flags. The text is given as parsed statements (ANTLR is not modelled)."
  },
  {
   "property": "C55",
   "status": "partial",
   "theorems": [
    "Verif.Table.C55_readers_partial",
    "Verif.Table.C55_wrong_type",
    "Verif.Table.C55_no_column",
    "Verif.Table.C55_never_null",
    "Verif.Table.C55_null_false",
    "Verif.Table.C55_computed_not_stored",
    "Verif.Table.C55_stored",
    "Verif.Table.C55_by_name_false",
    "Verif.Table.C55_cache",
    "Verif.Table.C55_depth",
    "Verif.Table.C55_circle_false",
    "Verif.Table.C55_conversion_partial",
    "Verif.Table.C55_date_false",
    "Verif.Table.C55_numbers",
    "Verif.Table.C55_null",
    "Verif.Table.C55_wrap"
   ],
   "note": "All rows reachable by creating, storing and reading. False of the code: ValueByName gives nil or the expression, a null result reads as a zero value, a column computed from itself overflows the stack, dates convert to Boolean the wrong way round (all proved)."
  },
  {
   "property": "C56",
   "status": "partial",
   "theorems": [
    "Verif.Expr.C56_int32",
    "Verif.Expr.C56_int64",
    "Verif.Expr.C56_bitwise",
    "Verif.Expr.C56_mixed",
    "Verif.Expr.C56_division",
    "Verif.Expr.C56_shift_left",
    "Verif.Expr.C56_shift_right",
    "Verif.Expr.C56_shift_right_int64_partial",
    "Verif.Expr.C56_shift_right_false",
    "Verif.Expr.C56_negative_amount_partial",
    "Verif.Expr.C56_negative_amount_false"
   ],
   "note": "All arithmetic and left shifts in full. False of the code: an Int64 is shifted right as an unsigned number, an Int32 arithmetically; a negative amount that is a multiple of the width clears the value (both proved)."
  },
  {
   "property": "C57",
   "status": "partial",
   "theorems": [
    "Verif.Expr.C57_null",
    "Verif.Expr.C57_same_type",
    "Verif.Expr.C57_error_iff",
    "Verif.Expr.C57_panic_iff",
    "Verif.Expr.C57_supported_partial",
    "Verif.Expr.C57_boolean_false",
    "Verif.Expr.C57_integer_round_trip",
    "Verif.Expr.C57_decimal_round_trip",
    "Verif.Expr.C57_double_round_trip_partial",
    "Verif.Expr.C57_double_false",
    "Verif.Expr.C57_text_round_trip",
    "Verif.Lib.go_numbers",
    "Verif.Lib.C57_round_trips_go",
    "Verif.Lib.C57_double_go_false"
   ],
   "note": "All values and type pairs; round trips through the decimal and float libraries under stated laws of them. False of the code: Boolean to Int32 panics, as do NaN and infinities to Decimal; large Int64 do not survive Double (proved). The laws are proved of the modelled libraries."
  },
  {
   "property": "C58",
   "status": "partial",
   "theorems": [
    "Verif.Meta.C58_acronym",
    "Verif.Meta.C58_acronym_injective",
    "Verif.Meta.C58_reference_partial",
    "Verif.Meta.C58_panic_iff",
    "Verif.Meta.C58_no_panic_false",
    "Verif.Meta.C58_negative_false",
    "Verif.Meta.C58_no_dash",
    "Verif.Lib.goText_laws",
    "Verif.Meta.C58_type",
    "Verif.Meta.C58_type_length",
    "Verif.Lib.textLaws_withCase",
    "Verif.Lib.C58_voltage",
    "Verif.Lib.C58_acronym_false"
   ],
   "note": "All kinds, acronyms, positions and input strings. False of the code: a last part of fewer than two bytes makes the parser panic, a negative position is accepted (both proved; the inputs that panic are characterised). The laws assumed of strings.TrimSpace are proved of the library as written out. Signal types tell kinds apart, and voltages from currents (C58_type); that unicode.ToUpper gives V for v and V only is C58_voltage. False of the code: an acronym with a long s is taken for one with S (C58_acronym_false)."
  },
  {
   "property": "C59",
   "status": "partial",
   "theorems": [
    "Verif.Xml.C59_parent_level",
    "Verif.Xml.C59_siblings",
    "Verif.Xml.C59_root_alone",
    "Verif.Xml.C59_items",
    "Verif.Xml.C59_max_depth",
    "Verif.Xml.C59_path",
    "Verif.Xml.C59_select_partial",
    "Verif.Xml.C59_document",
    "Verif.Xml.C59_path_finds",
    "Verif.Xml.C59_no_panic_partial",
    "Verif.Xml.C59_panic_iff",
    "Verif.Xml.C59_no_panic_false"
   ],
   "note": "All element trees (decoding is C120) and all paths; links, levels, indexes, depth, path text and selection in full. False of the code: a step with an empty predicate panics (proved; all paths that panic are characterised)."
  },
  {
   "property": "C60",
   "status": "proved",
   "theorems": [
    "Verif.Meta.C60_assigned",
    "Verif.Meta.C60_unassigned",
    "Verif.Meta.C60_raw"
   ],
   "note": "All histories of look-ups, assignments, received metadata and connections. Float arithmetic is a parameter; the raw value is returned for values unchanged by times 1 plus 0 (all but the sign of negative zero)."
  },
  {
   "property": "C61",
   "status": "proved",
   "theorems": [
    "Verif.Tssc.C61_adapt_optimal",
    "Verif.Tssc.C61_schedule"
   ],
   "note": ""
  },
  {
   "property": "C62",
   "status": "proved",
   "theorems": [
    "Verif.Modes.C62_flag_names",
    "Verif.Modes.C62_text_determines_flags"
   ],
   "note": ""
  },
  {
   "property": "C63",
   "status": "proved",
   "theorems": [
    "Verif.Session.C63_cipher_keys"
   ],
   "note": "AES itself is an arbitrary function of key, initialisation vector and bytes."
  },
  {
   "property": "C64",
   "status": "proved",
   "theorems": [
    "Verif.Session.C64_subscribed_flag"
   ],
   "note": ""
  },
  {
   "property": "C65",
   "status": "partial",
   "theorems": [
    "Verif.Table.Parser.C65_order_partial",
    "Verif.Table.Parser.C65_inverted",
    "Verif.Table.Parser.C65_modifier_false"
   ],
   "note": "False of the code: the flag is inverted (proved for all strings). The partial theorem covers strings that upper-casing leaves alone."
  },
  {
   "property": "C66",
   "status": "proved",
   "theorems": [
    "Verif.Meta.C66_received",
    "Verif.Meta.C66_others",
    "Verif.Meta.C66_key_ignored"
   ],
   "note": "All tables and registries; the columns are read by the modelled row readers."
  },
  {
   "property": "C68",
   "status": "partial",
   "theorems": [
    "Verif.Xml.C68_attribute_partial",
    "Verif.Xml.C68_has_attribute",
    "Verif.Xml.C68_child_partial",
    "Verif.Xml.C68_has_child",
    "Verif.Xml.C68_equals_false",
    "Verif.Xml.C68_empty_false",
    "Verif.Xml.C68_any_attribute_false",
    "Verif.Lib.goText_laws"
   ],
   "note": "All trees and all names and values without = / [ ]. False of the code: a value with an equals sign is ignored, the empty value is compared with its quotes, [@*] selects elements without attributes (all proved). The laws assumed of strings.TrimSpace are proved of the library as written out (Lib/TrimProps)."
  },
  {
   "property": "C67",
   "status": "partial",
   "theorems": [
    "Verif.Data.C67_round_trip_partial",
    "Verif.Data.C67_any_document",
    "Verif.Data.C67_texts_false",
    "Verif.Data.C67_escape_false",
    "Verif.Data.C67_prefix_false",
    "Verif.Lib.C67_libraries_partial",
    "Verif.Lib.C67_libraries",
    "Verif.Lib.C67_libraries_bytes",
    "Verif.Data.C67_loads",
    "Verif.Data.C67_bytes",
    "Verif.Data.C67_bytes_partial",
    "Verif.Data.C67_any_bytes"
   ],
   "note": "All data sets with distinct non-empty names; integers and Booleans proved to read back, dates, floats, decimals and GUIDs read back given that Go library text does. Any document: never a panic, errors characterised. False of the code: strings keep their XML escapes, two prefixes for the schema namespace make columns depend on map order, and XSD texts such as the Boolean 1 or the integer 010 are misread (all proved). With the libraries as they are, no hypothesis on them is left: all finite floats, dates of the years 0 to 9999, decimals without a power of ten and GUIDs load back. For all strings, exactly: each loads with the characters &, <, > escaped, everything else as written; any prefix that can be bound. From bytes: whatever prolog, blanks and prefix the document is written with, reading it (Xml/Decode) and loading gives the same; and for any bytes at all the outcome is an error or the loading of the tree they spell."
  },
  {
   "property": "C69",
   "status": "partial",
   "theorems": [
    "Verif.Parse.C69_grouping",
    "Verif.Parse.C69_precedence_partial",
    "Verif.Parse.C69_suffix",
    "Verif.Parse.C69_not",
    "Verif.Parse.C69_precedence_false",
    "Verif.Parse.C69_and_or_false",
    "Verif.Parse.C69_comparison_false",
    "Verif.Parse.C69_suffix_false"
   ],
   "note": "All operators and all closed operands; how any two operators, an operator and a suffix, and NOT and an operator group is characterised exactly. False of the code: + and * have one precedence, so have AND and OR, and all comparisons; IS NULL and IN bind more tightly than comparisons (all proved with witnesses)."
  },
  {
   "property": "C70",
   "status": "proved",
   "theorems": [
    "Verif.Parse.C70_parse",
    "Verif.Parse.C70_unique",
    "Verif.Parse.C70_build",
    "Verif.Parse.C70_brackets"
   ],
   "note": "All token sequences and all syntax trees. The lexer and the error recovery of ANTLR are not modelled; its prediction is modelled by the look-ahead that decides each choice."
  },
  {
   "property": "C71",
   "status": "partial",
   "theorems": [
    "Verif.Parse.C71_integer_partial",
    "Verif.Parse.C71_octal",
    "Verif.Parse.C71_integer_false"
   ],
   "note": "All digit sequences that do not begin with 0. False of the code: digits that begin with 0 are read as octal, and 08 as a Decimal. Digits beyond 64 bits: C105_integer."
  },
  {
   "property": "C72",
   "status": "partial",
   "theorems": [
    "Verif.Parse.C72_string_partial",
    "Verif.Parse.C72_string",
    "Verif.Parse.C72_datetime",
    "Verif.Parse.C72_guid",
    "Verif.Parse.C72_guid_bare",
    "Verif.Parse.C72_plain_name",
    "Verif.Parse.C72_unknown",
    "Verif.Parse.C72_name_unknown",
    "Verif.Parse.C72_string_false",
    "Verif.Parse.C72_name_false"
   ],
   "note": "All texts. False of the code: doubled quotes stay doubled, delimiters of names stay in the name (proved with witnesses)."
  },
  {
   "property": "C73",
   "status": "partial",
   "theorems": [
    "Verif.Expr.C73_connectives",
    "Verif.Expr.C73_de_morgan",
    "Verif.Expr.C73_three_valued_false",
    "Verif.Expr.C73_short_circuit_false",
    "Verif.Expr.C73_boolean_arithmetic",
    "Verif.Expr.C73_boolean_product_false",
    "Verif.Expr.C73_join_partial",
    "Verif.Expr.C73_join_assoc",
    "Verif.Expr.C73_join_false"
   ],
   "note": "All expressions as operands. False of the code: null makes AND and OR null whatever the other operand, both operands are always evaluated, a Guid or DateTime cannot stand left of a text (all proved)."
  },
  {
   "property": "C74",
   "status": "partial",
   "theorems": [
    "Verif.Expr.C74_tests",
    "Verif.Expr.C74_tests_default",
    "Verif.Expr.C74_len_partial",
    "Verif.Expr.C74_len_bytes",
    "Verif.Expr.C74_len_false",
    "Verif.Expr.C74_reverse_partial",
    "Verif.Expr.C74_reverse_false",
    "Verif.Expr.C74_trim",
    "Verif.Expr.C74_trim_ends_partial",
    "Verif.Expr.C74_trim_ends_false",
    "Verif.Expr.C74_trim_loses",
    "Verif.Lib.C139_upper_lower"
   ],
   "note": "All texts, with UTF-8 decoding modelled. False of the code: Len counts bytes, TrimLeft and TrimRight keep Unicode spaces and remove bytes that are no UTF-8, Reverse changes such bytes (all proved). Case folding is written out in Lib/Case."
  },
  {
   "property": "C75",
   "status": "partial",
   "theorems": [
    "Verif.Expr.C75_replace",
    "Verif.Expr.C75_parts",
    "Verif.Expr.C75_ignore_case_partial",
    "Verif.Expr.C75_ignore_case_false",
    "Verif.Expr.C75_not_compiled",
    "Verif.Expr.C75_replace_empty",
    "Verif.Lib.C75_cuts",
    "Verif.Lib.C75_ignore_case",
    "Verif.Lib.C75_ignore_case_empty",
    "Verif.Lib.C75_ignore_case_error"
   ],
   "note": "All texts. False of the code: ignoring case, a dollar sign in the replacement starts a template (proved). The case-insensitive search is written out: it replaces the leftmost occurrences and keeps every other byte; a text to be replaced that is no UTF-8 is an error. Left open: a text to be replaced that has a U+FFFD or more than a million bytes."
  },
  {
   "property": "C76",
   "status": "partial",
   "theorems": [
    "Verif.Expr.C76_abs_partial",
    "Verif.Expr.C76_abs_false",
    "Verif.Expr.C76_rounding",
    "Verif.Expr.C76_convert_names",
    "Verif.Expr.C76_convert_aliases",
    "Verif.Expr.C76_convert_unknown",
    "Verif.Expr.C76_convert_false",
    "Verif.Lib.C76_decimal",
    "Verif.Lib.C76_double",
    "Verif.Lib.upperAscii_withCase",
    "Verif.Lib.C76_convert_names_go"
   ],
   "note": "All values and names. False of the code: Abs of the smallest integer is negative, Convert takes any text that starts like a number type (both proved). That upper-casing acts so on ASCII letters is proved of the library as written out. Abs, Ceiling, Floor and Round of decimals and doubles are proved of the modelled libraries."
  },
  {
   "property": "C77",
   "status": "partial",
   "theorems": [
    "Verif.Expr.C77_parts_partial",
    "Verif.Expr.C77_every_instant",
    "Verif.Expr.C77_weekday",
    "Verif.Expr.C77_week",
    "Verif.Expr.C77_unknown_interval",
    "Verif.Expr.C77_text_false"
   ],
   "note": "All instants, in UTC; Go time functions are taken to be those of the calendar model. False of the code: a text that is no date is taken for 1 January of year 1 (proved). The calendar model is an instance of the laws."
  },
  {
   "property": "C78",
   "status": "partial",
   "theorems": [
    "Verif.Expr.C78_elapsed_partial",
    "Verif.Expr.C78_undo",
    "Verif.Expr.C78_overflow_false",
    "Verif.Expr.C78_months_partial",
    "Verif.Expr.C78_months_false",
    "Verif.Expr.C78_leap_false"
   ],
   "note": "All dates and 32-bit amounts within the range of time.Duration. False of the code: larger amounts overflow and may go backwards, a month after 31 January is in March, a year after 29 February is 1 March (all proved)."
  },
  {
   "property": "C79",
   "status": "partial",
   "theorems": [
    "Verif.Expr.C79_whole_partial",
    "Verif.Expr.C79_undo",
    "Verif.Expr.C79_calendar",
    "Verif.Expr.C79_undo_months",
    "Verif.Expr.C79_undo_months_false",
    "Verif.Expr.C79_elapsed_false",
    "Verif.Expr.C79_milliseconds_partial",
    "Verif.Expr.C79_milliseconds_false",
    "Verif.Expr.C79_saturates_false",
    "Verif.Lib.go_durations",
    "Verif.Lib.C79_whole_part",
    "Verif.Lib.C79_nanoseconds_false"
   ],
   "note": "All dates a whole number of intervals apart within 292 years; years and months in full. False of the code: milliseconds wrap after 24 days, differences saturate at 292 years, years and months count calendar boundaries (all proved). Differences that are not whole intervals are counted towards zero if told to a divisor g of a second and at most 9e15 g long (C79_whole_part); to the nanosecond that fails (proved). The laws of floating point are proved of the modelled libraries."
  },
  {
   "property": "C80",
   "status": "proved",
   "theorems": [
    "Verif.Lex.C80_cut",
    "Verif.Lex.C80_unique"
   ],
   "note": "All texts. ANTLR runs the serialized automaton; the model takes the grammar rules it was made from and the longest-match rule as its meaning (compared by hand, see DESIGN.md)."
  },
  {
   "property": "C81",
   "status": "partial",
   "theorems": [
    "Verif.Lex.C81_keyword",
    "Verif.Lex.C81_boolean",
    "Verif.Lex.C81_identifier_partial",
    "Verif.Lex.C81_word_false"
   ],
   "note": "All words; the condition on what follows excludes longer matches. False of the code: before a colon and a number, or with a dash, a word is part of a measurement key (proved)."
  },
  {
   "property": "C82",
   "status": "partial",
   "theorems": [
    "Verif.Lex.C82_integer",
    "Verif.Lex.C82_hex",
    "Verif.Lex.C82_number",
    "Verif.Lex.C82_guid_quoted",
    "Verif.Lex.C82_guid_braces",
    "Verif.Lex.C82_guid_dashes_partial",
    "Verif.Lex.C82_guid_false"
   ],
   "note": "All literals. False of the code: a bare GUID of 32 digits without dashes may be an integer or an identifier (proved)."
  },
  {
   "property": "C83",
   "status": "partial",
   "theorems": [
    "Verif.Lex.C83_string_partial",
    "Verif.Lex.C83_string_false",
    "Verif.Lex.C83_delimited",
    "Verif.Lex.C83_datetime",
    "Verif.Lex.C83_key",
    "Verif.Lex.C83_tag"
   ],
   "note": "All texts. False of the code: a string of 32 hexadecimal digits is a GUID (proved)."
  },
  {
   "property": "C84",
   "status": "partial",
   "theorems": [
    "Verif.Lex.C84_classes",
    "Verif.Lex.C84_operator",
    "Verif.Lex.C84_blank",
    "Verif.Lex.C84_block_comment",
    "Verif.Lex.C84_line_comment_partial",
    "Verif.Lex.C84_minus_false",
    "Verif.Lex.C84_line_comment_false"
   ],
   "note": "All operators and comments. False of the code: 5--3 is 5, and a line comment that has the form of a measurement key is one (proved)."
  },
  {
   "property": "C85",
   "status": "partial",
   "theorems": [
    "Verif.Lex.C85_before_blank_partial",
    "Verif.Lex.C85_spread",
    "Verif.Lex.C85_tokens",
    "Verif.Lex.C85_append",
    "Verif.Lex.C85_blank",
    "Verif.Lex.C85_append_false",
    "Verif.Lex.C85_key_false"
   ],
   "note": "All sequences of tokens. False of the code for measurement keys that begin with #, as one more # makes a date of them, and for texts that end in an open comment (both proved)."
  },
  {
   "property": "C86",
   "status": "proved",
   "theorems": [
    "Verif.Lex.C86_parse",
    "Verif.Lex.C86_tokens",
    "Verif.Lex.C86_text"
   ],
   "note": "All well-formed syntax trees whose literals and names have texts of their kind."
  },
  {
   "property": "C87",
   "status": "proved",
   "theorems": [
    "Verif.Parse.C87_statements"
   ],
   "note": "All token sequences. What ANTLR recovers from a sequence that is no list of statements is not modelled."
  },
  {
   "property": "C88",
   "status": "partial",
   "theorems": [
    "Verif.Table.Parser.C88_text",
    "Verif.Table.Parser.C88_refused",
    "Verif.Table.C88_union",
    "Verif.Table.C88_union_ids",
    "Verif.Table.C88_filter",
    "Verif.Table.C88_filter_rows",
    "Verif.Table.C88_filter_sorted",
    "Verif.Table.C88_expression",
    "Verif.Table.C88_filter_ids_partial",
    "Verif.Table.C88_expression_ids_partial",
    "Verif.Table.C88_guid",
    "Verif.Table.C88_key",
    "Verif.Table.C88_tag",
    "Verif.Table.C88_top",
    "Verif.Table.C88_case_false",
    "Verif.Table.C88_top_false",
    "Verif.Table.C88_filter_exact",
    "Verif.Table.C88_expression_exact"
   ],
   "note": "All texts that parse, with lexer, parser, listener and evaluation in one model. Conditions have to evaluate without error on all rows. False of the code: a limit in hexadecimal digits is ignored, and a primary table named in other letters than its own makes SelectSignalIDSet an error (both proved); TOP cuts before ORDER BY sorts (C43). C88_filter_exact and C88_expression_exact give the outcome of the text of a statement whatever its condition does, errors and panics included."
  },
  {
   "property": "C89",
   "status": "partial",
   "theorems": [
    "Verif.Table.C89_select_partial",
    "Verif.Table.C89_rows_partial",
    "Verif.Table.C89_sorted_partial",
    "Verif.Table.C89_all",
    "Verif.Table.C89_comment_false"
   ],
   "note": "All tables with an identifier as name, all filters that are texts of expressions without an open comment, all sort orders and limits. False of the code: a filter that ends in a line comment loses the sort order (proved). Filters have to be Boolean on all rows (C42)."
  },
  {
   "property": "C90",
   "status": "proved",
   "theorems": [
    "Verif.Table.C90_value",
    "Verif.Table.C90_refused",
    "Verif.Table.C90_first",
    "Verif.Table.C90_guid",
    "Verif.Table.C90_identifier",
    "Verif.Table.C90_row"
   ],
   "note": "All texts that parse."
  },
  {
   "property": "C91",
   "status": "partial",
   "theorems": [
    "Verif.Table.C91_computed_partial"
   ],
   "note": "All tables, rows reachable by their operations and expressions. Missing: null values and the untyped reader by name, where the claim is false of the code (C55)."
  },
  {
   "property": "C92",
   "status": "proved",
   "theorems": [
    "Verif.Lex.C92_comparison",
    "Verif.Lex.C92_arithmetic",
    "Verif.Lex.C92_bitwise",
    "Verif.Lex.C92_logical",
    "Verif.Lex.C92_unary",
    "Verif.Lex.C92_not",
    "Verif.Lex.C92_like",
    "Verif.Lex.C92_null",
    "Verif.Lex.C92_in",
    "Verif.Lex.C92_boolean",
    "Verif.Lex.C92_function",
    "Verif.Lex.C92_function_names"
   ],
   "note": "All spellings and all operands that need no brackets; upper-casing is assumed to act on ASCII letters as it does in Go (Boolean literals)."
  },
  {
   "property": "C93",
   "status": "partial",
   "theorems": [
    "Verif.Format.C93_value_partial",
    "Verif.Format.C93_tie",
    "Verif.Format.C93_exact",
    "Verif.Format.C93_shape",
    "Verif.Format.C93_grouped",
    "Verif.Format.C93_infinity_false",
    "Verif.Format.C93_no_number"
   ],
   "note": "All finite floats, precisions and symbols, with strconv.FormatFloat(x, f, prec, 64) modelled as exact rounding. False of the code: plus infinity gets a separator (proved)."
  },
  {
   "property": "C94",
   "status": "partial",
   "theorems": [
    "Verif.Client.C94_split",
    "Verif.Client.C94_port",
    "Verif.Client.C94_target_partial",
    "Verif.Client.C94_refused",
    "Verif.Client.C94_dialled",
    "Verif.Client.C94_ipv6_false",
    "Verif.Client.C94_redial_false"
   ],
   "note": "All texts and histories. False of the code: IPv6 hosts lose their brackets and are never reached; after Disconnect no Dial connects any more (both proved)."
  },
  {
   "property": "C95",
   "status": "partial",
   "theorems": [
    "Verif.Client.C95_options",
    "Verif.Client.C95_given",
    "Verif.Client.C95_nil_partial",
    "Verif.Client.C95_modes",
    "Verif.Client.C95_nil_false",
    "Verif.Client.C95_auto_reconnect_false"
   ],
   "note": "All histories. False of the code: nil keeps the configuration given before, and AutoReconnect stays on once it was on (both proved)."
  },
  {
   "property": "C96",
   "status": "partial",
   "theorems": [
    "Verif.Client.C96_sent_partial",
    "Verif.Client.C96_defaults",
    "Verif.Client.C96_deferred_partial",
    "Verif.Client.C96_deferred_at_once_partial",
    "Verif.Client.C96_udp_modes_false",
    "Verif.Client.C96_never_subscribed_partial",
    "Verif.Client.C96_never_subscribed_at_once_partial"
   ],
   "note": "All filters and settings without separators in texts (C32), all histories. Missing: NaN filters (C32). False of the code: a UDP port chosen after connecting does not change the announced compression (proved). An application that never calls Subscribe has its automatic subscription asked for without a filter expression and with the default settings (C96_never_subscribed_partial, C96_never_subscribed_at_once_partial)."
  },
  {
   "property": "C97",
   "status": "partial",
   "theorems": [
    "Verif.Client.C97_requests_partial",
    "Verif.Client.C97_subscribes_partial",
    "Verif.Client.C97_neither",
    "Verif.Client.C97_after_metadata",
    "Verif.Client.C97_order",
    "Verif.Client.C97_never",
    "Verif.Client.C97_metadata_only",
    "Verif.Client.C97_reconnect_false",
    "Verif.Client.C97_twice_false"
   ],
   "note": "All histories. False of the code: without metadata a reconnection with protocol version 2 is not subscribed, and a dial after a failed Listen requests metadata twice (both proved)."
  },
  {
   "property": "C98",
   "status": "partial",
   "theorems": [
    "Verif.Sync.Send.C98_calls",
    "Verif.Sync.Send.C98_sizes",
    "Verif.Sync.Send.C98_intact_partial",
    "Verif.Sync.Send.C98_one_sender",
    "Verif.Sync.Send.C98_lost_false",
    "Verif.Sync.Send.C98_garbled_false"
   ],
   "note": "All interleavings. False of the code: the packet is built in a buffer shared by all callers without a lock, so overlapping calls lose or garble commands (proved for every pair of calls); it holds when calls do not overlap."
  },
  {
   "property": "C99",
   "status": "partial",
   "theorems": [
    "Verif.Guid.C99_accepts_partial",
    "Verif.Guid.C99_text",
    "Verif.Guid.C99_round_trip",
    "Verif.Guid.C99_distinct",
    "Verif.Guid.C99_delimiters_false",
    "Verif.Guid.C99_error_false"
   ],
   "note": "All Guids and texts, with google/uuid written out. False of the code: any two bytes pass as braces, and a failed Parse returns a partly filled Guid that Convert and the XML reader use (both proved)."
  },
  {
   "property": "C100",
   "status": "partial",
   "theorems": [
    "Verif.Lib.C100_exact_partial",
    "Verif.Lib.C100_quotient",
    "Verif.Lib.C100_remainder_refused"
   ],
   "note": "All decimals, with unbounded exponents (shopspring panics when an exponent passes 32 bits). The operator % refuses decimals (proved)."
  },
  {
   "property": "C101",
   "status": "proved",
   "theorems": [
    "Verif.Lib.C101_nearest",
    "Verif.Lib.C101_add",
    "Verif.Lib.C101_subtract",
    "Verif.Lib.C101_multiply",
    "Verif.Lib.C101_divide",
    "Verif.Lib.C101_minus",
    "Verif.Lib.C101_decimal_fractions_false"
   ],
   "note": "All doubles: results in range are nearest (ties to even), beyond it they overflow to infinity exactly from 2^1024 - 2^970 on, and infinities, NaN, division by zero and the signs of zeros are given case by case. The order in which a compiler may fuse operations does not matter, as each operator is one function."
  },
  {
   "property": "C102",
   "status": "proved",
   "theorems": [
    "Verif.Lib.C102_sqrt",
    "Verif.Lib.C102_edge",
    "Verif.Lib.C102_perfect_square"
   ],
   "note": "All numbers of any numeric type in the range of Double."
  },
  {
   "property": "C103",
   "status": "partial",
   "theorems": [
    "Verif.Lib.C103_exact",
    "Verif.Lib.C103_double",
    "Verif.Lib.C103_whole",
    "Verif.Lib.C103_order_partial",
    "Verif.Lib.C103_equal_false"
   ],
   "note": "All numbers. False of the code: a Double makes of the other operand the nearest double, so that different numbers may be found equal (proved with 2^53 + 1)."
  },
  {
   "property": "C104",
   "status": "partial",
   "theorems": [
    "Verif.Lib.C104_reads",
    "Verif.Lib.C104_writes",
    "Verif.Lib.C104_writes_double",
    "Verif.Lib.C104_round_trip",
    "Verif.Lib.C104_double_round_trip_partial",
    "Verif.Lib.C104_double_false",
    "Verif.Lib.C110_integers"
   ],
   "note": "All numbers and texts that write one, with the readers of shopspring decimals and strconv written out. False of the code: a Double is written with six places only (proved). A text of a number is read as an integer of a column type exactly if it fits."
  },
  {
   "property": "C105",
   "status": "proved",
   "theorems": [
    "Verif.Lib.C105_integer",
    "Verif.Lib.C105_decimal",
    "Verif.Lib.C105_power"
   ],
   "note": "All literals without leading zero (with one, see C71_integer_false)."
  },
  {
   "property": "C106",
   "status": "proved",
   "theorems": [
    "Verif.Session.C106_published_is_received",
    "Verif.Session.C106_published_is_read"
   ],
   "note": "All sequences of packets a publisher may send, with AES, gzip and metadata arbitrary functions (for the actual AES and gzip see C129, C130). Confirmations can be written. Joined with C38: NextMeasurement returns what was published, once and in order."
  },
  {
   "property": "C107",
   "status": "partial",
   "theorems": [
    "Verif.Session.C107_either_channel_partial",
    "Verif.Session.C107_compact_datagrams",
    "Verif.Session.C107_short_datagram_panics",
    "Verif.Session.C107_long_datagram_panics",
    "Verif.Session.C107_lost_block_loses"
   ],
   "note": "All interleavings of whole responses; loads and stores of the two goroutines one by one are in C127 (base times) and C136 (cipher keys). False of the code: a datagram of fewer than six bytes, or a compact one cut off at 32768 bytes, ends the program, and after one lost TSSC block none is decoded any more (all proved)."
  },
  {
   "property": "C108",
   "status": "partial",
   "theorems": [
    "Verif.Sync.Reconnect.C108_reconnect_partial",
    "Verif.Sync.Reconnect.C108_stale_send_deadlock_false",
    "Verif.Sync.Reconnect.C108_mutual_join_deadlock_false",
    "Verif.Sync.Reconnect.C108_assignment_deadlock_false",
    "Verif.Sync.Reconnect.C108_connect_in_callback_hangs_false",
    "Verif.Sync.Reconnect.C108_callbacks_apart",
    "Verif.Sync.Reconnect.C108_disconnects_counted"
   ],
   "note": "All schedules in which no callback is assigned, no callback connects and no failure is noticed after the disconnect it belongs to. False of the code otherwise: a command that fails late, an assignment of a callback at a bad moment, or a Connect within the connection terminated callback leave the subscriber deadlocked for ever (all proved). C108_callbacks_apart: in every execution, assignments and hanging threads included, nobody has the write side of the callback lock while a callback runs; C108_disconnects_counted: there are no more disconnects than sends and reads that failed."
  },
  {
   "property": "C109",
   "status": "partial",
   "theorems": [
    "Verif.Client.Callbacks.C109_receivers",
    "Verif.Client.Callbacks.C109_loggers_partial",
    "Verif.Client.Callbacks.C109_logger_late_false",
    "Verif.Client.Callbacks.C109_no_nil_call",
    "Verif.Client.Callbacks.C109_immediate",
    "Verif.Client.Callbacks.C109_old_is_over",
    "Verif.Client.Callbacks.C109_subscription_updated_panics",
    "Verif.Client.Callbacks.C109_notification_after_set_false",
    "Verif.Client.Callbacks.C109_inline_in_order",
    "Verif.Client.Callbacks.C109_go_once",
    "Verif.Client.Callbacks.C109_go_any_order_false"
   ],
   "note": "All sequences and interleavings. False of the code: loggers assigned while connected do not get messages of the transport layer; the receiver of new subscriptions is assigned under another mutex than it is called under (panic); callbacks called by go can be called after another one was assigned, and in any order (all proved)."
  },
  {
   "property": "C110",
   "status": "partial",
   "theorems": [
    "Verif.Lib.C110_value_partial",
    "Verif.Lib.C110_stored_partial",
    "Verif.Lib.C110_distinct",
    "Verif.Lib.C110_read_back",
    "Verif.Lib.C110_integers",
    "Verif.Lib.C110_nothing",
    "Verif.Lib.C110_by_row",
    "Verif.Lib.C110_null",
    "Verif.Lib.C110_null_false",
    "Verif.Lib.C110_computed_null_false",
    "Verif.Lib.C110_row",
    "Verif.Lib.C110_row_determines_partial",
    "Verif.Lib.C110_row_false",
    "Verif.Lib.C110_table",
    "Verif.Lib.C110_types",
    "Verif.Lib.C110_set_false"
   ],
   "note": "All tables, rows and values; floats finite, dates in the years 0 to 9999. False of the code: the string <NULL> looks like null and the empty string like an error, null results of computed columns show as 0 or the empty text, rows with String columns can have the same text, the text of a data set depends on map order (all proved)."
  },
  {
   "property": "C111",
   "status": "partial",
   "theorems": [
    "Verif.Ticks.C111_ticks_partial",
    "Verif.Ticks.C111_ticks_distinct",
    "Verif.Ticks.C111_flags_false",
    "Verif.Ticks.C111_year_false",
    "Verif.Ticks.C111_short_partial",
    "Verif.Ticks.C111_measurement_partial",
    "Verif.Ticks.C111_measurement_determines",
    "Verif.Ticks.C111_measurement_day_false"
   ],
   "note": "All timestamps and measurements. The date shown is right within signed 64-bit nanoseconds of 1970 (about 1677 to 2262); outside, the code shows another date (proved, with the first and last documented timestamps). A leap second has the text of the second before it, and the text of a measurement leaves out the date (proved)."
  },
  {
   "property": "C112",
   "status": "partial",
   "theorems": [
    "Verif.Lib.TimeRead.C112_date",
    "Verif.Lib.TimeRead.C112_round_trip_partial",
    "Verif.Lib.TimeRead.C112_round_trip_false",
    "Verif.Lib.TimeRead.C112_year_false",
    "Verif.Lib.C112_loaded",
    "Verif.Lib.C112_zone_false"
   ],
   "note": "Which texts are dates, and the instant read: all texts. Read back: all instants of the years 0 to 9999, cut to hundredths of a second, which is all that is written. False of the code: milliseconds are lost when a date is written, years of five digits are written but not read, and a date in UTC written with Z or without a zone loads as 1 January of year 1 (all proved)."
  },
  {
   "property": "C113",
   "status": "partial",
   "theorems": [
    "Verif.Sync.Listen.C113_one_at_a_time",
    "Verif.Sync.Listen.C113_refused",
    "Verif.Sync.Listen.C113_kept_partial",
    "Verif.Sync.Listen.C113_settles_partial",
    "Verif.Sync.Listen.C113_next_partial",
    "Verif.Sync.Listen.C113_processed",
    "Verif.Sync.Listen.C113_next_false",
    "Verif.Sync.Listen.C113_disconnect_false",
    "Verif.Sync.Listen.C113_stale_termination_false",
    "Verif.Sync.Listen.C113_two_readers_false",
    "Verif.Sync.Listen.C113_disconnect_partial"
   ],
   "note": "In all schedules: while connected, nobody takes the place of the connection served, others are closed and nothing of them is processed. When each publisher to be served connects after what is left of the connection before has been dealt with: the connection is given up only if its publisher has left, from every state the subscriber gets to where a publisher is served or the next would be, and the next is served. False of the code without that: a publisher that connects too soon is closed in place of the old one and the disconnect thread waits for ever; a termination left over ends the next connection; two goroutines read from one connection; Disconnect while a publisher connects deadlocks. Disconnect while nobody is connecting ends listening, within twelve actions of the subscriber, in all schedules."
  },
  {
   "property": "C114",
   "status": "proved",
   "theorems": [
    "Verif.Sync.Pool.C114_kept",
    "Verif.Sync.Pool.C114_handed",
    "Verif.Sync.Pool.C114_apart",
    "Verif.Sync.Pool.C114_until",
    "Verif.Sync.Pool.C114_twice_false"
   ],
   "note": "All schedules at the level of single writes, any number of goroutines, sync.Pool free to give any pooled pointer or nil and to drop any. Not so for an application that gives a slice back twice, which is outside the property (shown)."
  },
  {
   "property": "C115",
   "status": "partial",
   "theorems": [
    "Verif.Lib.C115_published_partial",
    "Verif.Lib.C115_escape_false",
    "Verif.Lib.C115_received",
    "Verif.Lib.C115_bytes",
    "Verif.Lib.C115_any_bytes"
   ],
   "note": "All documents with the seven columns of MeasurementDetail anywhere among others, all rows, fields present or not. Partial: texts with the characters XML escapes are left out, for them it is false (proved): R&D is looked up as R&amp;D. For all texts, exactly: each is found with its escapes (C115_received), also from the bytes of the document (C115_bytes); no bytes end the program (C115_any_bytes)."
  },
  {
   "property": "C116",
   "status": "partial",
   "theorems": [
    "Verif.Lex.Names.C116_apart",
    "Verif.Lex.Names.C116_number",
    "Verif.Lex.Names.C116_defined_partial",
    "Verif.Lex.Names.C116_defined_false",
    "Verif.Lex.Names.C116_functions",
    "Verif.Lex.Names.C116_operators",
    "Verif.Lex.Names.C116_unaries",
    "Verif.Lex.Names.C116_sent",
    "Verif.Lex.Names.C116_received",
    "Verif.Lex.Names.C116_users",
    "Verif.Lex.Names.C116_bytes"
   ],
   "note": "All integers for all eight enumerations; operators through lexer and parser to the tree built, for all closed operands. False of the code: the command ConfirmUpdateBaseTimes has no case and appears as 0x9 (proved); every other defined value appears by its name."
  },
  {
   "property": "C117",
   "status": "partial",
   "theorems": [
    "Verif.Sync.Close.C117_ends_partial",
    "Verif.Sync.Close.C117_nothing_after_partial",
    "Verif.Sync.Close.C117_late_false",
    "Verif.Sync.Close.C117_crash_false",
    "Verif.Sync.Close.C117_race_false",
    "Verif.Sync.Close.C117_unseen_false",
    "Verif.Sync.Close.C117_before",
    "Verif.Sync.Close.C117_leaves",
    "Verif.Sync.Close.C117_told_twice_false"
   ],
   "note": "All schedules. Proved when Close is called after Dial has returned and, for what Close achieves, the publisher does not leave meanwhile: no crash, at most 21 further actions once the flag is off, and when nothing is possible any more all is over; after the application was told nothing is handed over. False of the code otherwise (proved): Close may return before anything happened; a publisher leaving meanwhile can make the program crash with a nil pointer; Close during Dial can wait for ever with the reading goroutine spinning, or leave a connection made after it. When Close has begun before Dial has looked, no connection is made. When nobody calls Close the publisher may leave at any time (C117_leaves): no crash, the application is told at most twice, and when nothing is possible any more the connection is closed, the reading goroutine is over and the application was told; it may be told twice (proved)."
  },
  {
   "property": "C118",
   "status": "partial",
   "theorems": [
    "Verif.Meta.C118_metadata",
    "Verif.Meta.C118_cache_partial",
    "Verif.Meta.C118_changed_false"
   ],
   "note": "All tables, registries, caches as sent by a publisher and histories. Metadata: in full (keys with a source). Caches: the first one that names the signal counts; false of the code when a later cache has another key, the old one stays (proved)."
  },
  {
   "property": "C119",
   "status": "proved",
   "theorems": [
    "Verif.Expr.C119_made",
    "Verif.Expr.C119_read",
    "Verif.Expr.C119_null",
    "Verif.Expr.C119_unchecked"
   ],
   "note": "All value types, all Go values by dynamic type (types without a value type are one case)."
  },
  {
   "property": "C120",
   "status": "proved",
   "theorems": [
    "Verif.Xml.C120_reads",
    "Verif.Xml.C120_one_meaning",
    "Verif.Xml.C120_after_root",
    "Verif.Xml.C120_division",
    "Verif.Xml.C120_cut"
   ],
   "note": "All byte texts. The decoder of encoding/xml (Go 1.22) is written out as used here; the characters beyond ASCII that names may hold are a parameter. Depth is not bounded; Go ends the program when the stack of a goroutine exceeds its limit, which is not modelled."
  },
  {
   "property": "C121",
   "status": "partial",
   "theorems": [
    "Verif.Sic.C121_length_partial",
    "Verif.Sic.C121_length_false",
    "Verif.Sic.C121_record"
   ],
   "note": "All buffers below 4 GiB and all records. False of the code (proved): the length is always that of the records alone, 24 bytes less than that of the cache, as nothing counts the header."
  },
  {
   "property": "C122",
   "status": "partial",
   "theorems": [
    "Verif.Table.C122_copy",
    "Verif.Table.C122_reads_the_same",
    "Verif.Table.C122_stored",
    "Verif.Table.C122_column",
    "Verif.Table.C122_later_column_partial",
    "Verif.Table.C122_later_column_panics",
    "Verif.Table.C122_late_copy_panics",
    "Verif.Table.C122_circle_panics"
   ],
   "note": "All tables, rows and readers; the outcome of every copy is given exactly, also between tables. False of the code (all proved): reading the new column in a row made before, or copying such a row, ends the program, and so does copying a row with a column computed from itself. Of the computed columns read by name without a type C55_by_name_false tells."
  },
  {
   "property": "C123",
   "status": "partial",
   "theorems": [
    "Verif.Sync.DataSocket.C123_one_partial",
    "Verif.Sync.DataSocket.C123_returns_partial",
    "Verif.Sync.DataSocket.C123_leaks",
    "Verif.Sync.DataSocket.C123_waits",
    "Verif.Sync.DataSocket.C123_disconnect_false",
    "Verif.Sync.DataSocket.C123_disconnect_panics",
    "Verif.Sync.DataSocket.C123_socket_false",
    "Verif.Sync.DataSocket.C123_reports_false"
   ],
   "note": "All schedules, one call at a time. Proved when Subscribe asks for a data channel only once the one before is closed or its subscription is confirmed. False of the code otherwise (all proved): every Subscribe that does not wait for the answer leaves a socket open for ever, Disconnect then waits for one more datagram, and what arrives at the socket left behind is processed in later connections. Closing twice is reported as an error."
  },
  {
   "property": "C124",
   "status": "proved",
   "theorems": [
    "Verif.Client.C124_noted",
    "Verif.Client.C124_asks",
    "Verif.Client.C124_silent",
    "Verif.Client.C124_renewal",
    "Verif.Client.C124_every",
    "Verif.Client.C124_manual"
   ],
   "note": "All states and all orders of packets and goroutines on a validated connection whose writes and UDP socket succeed."
  },
  {
   "property": "C125",
   "status": "proved",
   "theorems": [
    "Verif.Meta.C125_counts",
    "Verif.Meta.C125_any_bytes",
    "Verif.Meta.C125_written",
    "Verif.Lib.C125_version",
    "Verif.Lib.C125_published"
   ],
   "note": "All bytes and all orders of the tables. The text of the version is that of RowValueAsStringByName (C110); a computed VersionNumber column whose evaluation panics is not ruled out."
  },
  {
   "property": "C126",
   "status": "partial",
   "theorems": [
    "Verif.Table.C126_first",
    "Verif.Table.C126_first_trees",
    "Verif.Table.C126_once",
    "Verif.Table.C126_trees_partial",
    "Verif.Table.C126_unexpected",
    "Verif.Table.C126_again_false",
    "Verif.Table.C126_error_false",
    "Verif.Parse.C126_left",
    "Verif.Table.C126_refused",
    "Verif.Table.C126_failed",
    "Verif.Table.C126_refused_false",
    "Verif.Table.C126_untracked"
   ],
   "note": "False of the code: the token stream is not rewound, so every Evaluate after a call that parsed succeeds with nothing found (C126_once, for all texts, data and calls), also after an error. A refused text is refused once: from then on ExpressionTrees reports no error and gives the trees before the refused statement and what is left of that one, the last complete operand before the bad name (C126_refused, C126_left), for instance a tree that selects all rows for `True AND Nope > 2`. What a failed Evaluate leaves is C126_failed. The first use and ExpressionTrees after a successful Evaluate are as stated. Texts with syntax errors other than behind the statements are not modelled. An Evaluate with nothing to track changes nothing."
  },
  {
   "property": "C127",
   "status": "partial",
   "theorems": [
    "Verif.Session.Rotation.C127_each",
    "Verif.Session.Rotation.C127_rotation_partial",
    "Verif.Session.Rotation.C127_last",
    "Verif.Session.Rotation.C127_moment_false"
   ],
   "note": "All schedules at the level of single 64-bit stores and loads. False of the code: no lock guards the base times, so a packet can be dated partly with the old and partly with the new ones (proved); each measurement has a base time announced for its own element, packets that refer to unchanged base times are delivered as sent, and the last update holds."
  },
  {
   "property": "C128",
   "status": "partial",
   "theorems": [
    "Verif.Sync.Stop.C128_bounded",
    "Verif.Sync.Stop.C128_progress_partial",
    "Verif.Sync.Stop.C128_in_order",
    "Verif.Sync.Stop.C128_blocked",
    "Verif.Sync.Stop.C128_close_crashes",
    "Verif.Sync.Stop.C128_stop_false"
   ],
   "note": "All schedules. False of the code: the callback of a reader waits on a channel without buffer while it holds the callback lock and keeps the goroutine of the command channel, so if nobody calls NextMeasurement any more, Disconnect, Close and every assignment wait for ever, and Close of the reader ends the program (proved for every such state, with a run). That is the only way to hang: after Disconnect a bounded number of steps follow, and where none is possible all is complete or a reader with a measurement waiting is not called."
  },
  {
   "property": "C129",
   "status": "partial",
   "theorems": [
    "Verif.Lib.Aes.C129_roundtrip",
    "Verif.Lib.Aes.C129_outcomes",
    "Verif.Session.C129_sealed_may_be_sent_partial",
    "Verif.Session.C129_padding_panics",
    "Verif.Session.C129_lengths"
   ],
   "note": "AES is written out from FIPS 197 and checked against its vectors; that crypto/aes and crypto/cipher agree is trusted. The round trip is proved for all keys and data, and joined with C106 for compact packets and for TSSC blocks with the end code word. False of the code for the rest: the padding is not removed, so that a TSSC block that needs no end code word has its padding decoded as measurements (panic), and packets or initialisation vectors of other lengths make CryptBlocks panic; what happens is stated exactly."
  },
  {
   "property": "C130",
   "status": "proved",
   "theorems": [
    "Verif.Lib.Gzip.C130_decompress",
    "Verif.Lib.Gzip.C130_unambiguous",
    "Verif.Lib.Gzip.C130_refused",
    "Verif.Lib.Gzip.C130_any_text",
    "Verif.Session.C130_cache_received",
    "Verif.Session.C130_cache_refused",
    "Verif.Session.C130_metadata_received"
   ],
   "note": "Exact for all byte sequences: the reader of bits against the formats of the two standards, written as inductive relations without reference to the reader. compress/gzip, compress/flate and hash/crc32 are not in /repo; they are written out from their documentation and the standards, and that they agree is trusted. File and memory limits are not modelled. Texts in a header are limited to 511 bytes, as in Go."
  },
  {
   "property": "C131",
   "status": "partial",
   "theorems": [
    "Verif.Parse.C131_read_partial",
    "Verif.Table.C131_alike",
    "Verif.Table.C131_ignored",
    "Verif.Table.C131_refused_false",
    "Verif.Table.C131_select_loses"
   ],
   "note": "False of the code: ANTLR reports the error to a listener that at most calls the user back, recovers and keeps what it has read, so that whatever follows a filter expression and cannot go on is ignored, with all later statements and, in Select, the sort order (proved, with exactly which texts are read as which statements). Missing: which texts with other errors, inside a statement, are refused; how ANTLR repairs these is not modelled. That ANTLR leaves the rules at such a token and skips the rest is taken from its documentation (DefaultErrorStrategy, ParserATNSimulator), as its runtime is not in /repo."
  },
  {
   "property": "C132",
   "status": "partial",
   "theorems": [
    "Verif.Client.C132_peers_partial",
    "Verif.Client.C132_accepted",
    "Verif.Client.C132_hosts_differ",
    "Verif.Client.C132_dialled",
    "Verif.Client.C132_port_false"
   ],
   "note": "All hosts without brackets or parentheses, all ports, all answers of the name server, at different times too. False of the code (proved): the port of a connection accepted is left out, so that two publishers on one host have one ID. net.LookupAddr is a parameter; net.SplitHostPort and net.JoinHostPort are written out."
  },
  {
   "property": "C133",
   "status": "partial",
   "theorems": [
    "Verif.Table.C133_held",
    "Verif.Table.C133_rows_partial",
    "Verif.Table.C133_set_partial",
    "Verif.Table.C133_ids_partial",
    "Verif.Table.C133_select_partial",
    "Verif.Table.C133_removed_false",
    "Verif.Table.C133_replaced_false",
    "Verif.Table.C133_select_replaced_wrong",
    "Verif.Table.C133_other_false"
   ],
   "note": "All histories of the data set in which the table is added and its name, letter case aside, is not added or removed after. False of the code (proved): a table not in its data set cannot be selected from; for one replaced by another of its name the rows of the other are given, and Select evaluates a filter made from the columns of the new table on the rows of the old one; a text with FILTER selects from the table it names. The primaryTable parameter is not used."
  },
  {
   "property": "C134",
   "status": "partial",
   "theorems": [
    "Verif.Session.C134_totals",
    "Verif.Session.C134_udp_partial",
    "Verif.Session.C134_without_false",
    "Verif.Session.C134_falls_false"
   ],
   "note": "All histories in which no packet is refused for its size before the handshake (C26 says what is counted then). False of the code: without datagrams the total of the data channel is that of the command channel, with the handshake, metadata and all else, and it goes down when the application subscribes again with datagrams (both proved for all histories). Of a datagram longer than 32768 bytes that many are counted."
  },
  {
   "property": "C135",
   "status": "partial",
   "theorems": [
    "Verif.Sync.Inside.C135_partial",
    "Verif.Sync.Inside.C135_bounded",
    "Verif.Sync.Inside.C135_disconnect",
    "Verif.Sync.Inside.C135_ignored",
    "Verif.Sync.Inside.C135_close_own",
    "Verif.Sync.Inside.C135_close_never",
    "Verif.Sync.Inside.C135_close_self",
    "Verif.Sync.Inside.C135_close_waits",
    "Verif.Sync.Inside.C135_close_iff",
    "Verif.Sync.Inside.C135_close_false",
    "Verif.Sync.Inside.C135_ignored_false",
    "Verif.Sync.Inside.C135_close_final"
   ],
   "note": "All schedules, every callback. Disconnect from any callback returns and completes; Close does so under every schedule exactly when its callback has a goroutine of its own. False of the code otherwise (proved): Close on the reconnect or disconnect thread waits for itself, and on a goroutine of a channel, of the listener or within Connect it waits for ever once it has seen the disconnect thread running; if it comes back, the disconnect is not complete. Disconnect in the connection terminated callback of a lost connection does nothing: the reconnect follows. After Close no reconnect follows, from any callback."
  },
  {
   "property": "C136",
   "status": "partial",
   "theorems": [
    "Verif.Session.KeyRotation.C136_whole_partial",
    "Verif.Session.KeyRotation.C136_kept",
    "Verif.Session.KeyRotation.C136_past",
    "Verif.Session.KeyRotation.C136_fresh",
    "Verif.Session.KeyRotation.C136_overtakes_false",
    "Verif.Session.KeyRotation.C136_plain_false",
    "Verif.Session.KeyRotation.C136_crash_false"
   ],
   "note": "All schedules, all updates and datagrams, words of the slice stored and loaded in either order. Each datagram is read with one announced pair of keys, whole, never an older one than the datagram before; datagrams enciphered with the half that updates do not replace are received as sent; updates to come have no effect, and once the last is stored its keys are used. False of the code (proved): a datagram that overtakes the announcement of its keys is deciphered with other keys or, before the first one, taken as it is; and a compiler that stores the pointer before the length makes a datagram that meets the first announcement end the program."
  },
  {
   "property": "C137",
   "status": "partial",
   "theorems": [
    "Verif.Examples.C137_accepted",
    "Verif.Examples.C137_exact",
    "Verif.Examples.C137_partial",
    "Verif.Examples.C137_usage",
    "Verif.Examples.C137_ipv6_false",
    "Verif.Examples.C137_message_false"
   ],
   "note": "All command lines. Which are accepted, and what Dial and Listen make of the address, exactly. False of the code (proved): an IPv6 host without brackets is accepted but its address is none, so that nothing is dialled and the error is dropped (with brackets: C94_ipv6_false); the message about a wrong port quotes the host."
  },
  {
   "property": "C138",
   "status": "partial",
   "theorems": [
    "Verif.Session.Flight.C138_stream",
    "Verif.Session.Flight.C138_datagram",
    "Verif.Session.Flight.C138_intime_partial",
    "Verif.Session.Flight.C138_moves",
    "Verif.Session.Flight.C138_known",
    "Verif.Session.Flight.C138_refused",
    "Verif.Session.Flight.C138_late_false",
    "Verif.Session.Flight.C138_confirm_false"
   ],
   "note": "All interleavings, unbounded numbers of updates and packets. On the command channel always; datagrams exactly up to an even number of updates, and rightly when handled before the second update after their own is sent. False of the code (proved): a datagram that is later is decoded with the wrong cache; base time and cipher key updates are never confirmed, whatever packets arrive."
  },
  {
   "property": "C139",
   "status": "partial",
   "theorems": [
    "Verif.Lib.C139_equal",
    "Verif.Lib.C139_capitals",
    "Verif.Lib.C139_consistent_partial",
    "Verif.Lib.C139_consistent_false",
    "Verif.Lib.C139_bytes_false",
    "Verif.Lib.C139_upper_lower",
    "Verif.Lib.C139_upper_false",
    "Verif.Lib.C139_index_of",
    "Verif.Lib.C139_index_of_false",
    "Verif.Lib.C139_split_false"
   ],
   "note": "All texts. What = takes for an ASCII text and which texts have its capitals are characterised exactly; the comparisons agree when one text is ASCII and the other has neither a dotless i nor a Kelvin sign. False of the code (proved): the Kelvin sign is equal to and greater than k, a dotless i is neither less, equal nor greater than i; bytes that are no UTF-8 are all equal, and Upper and Lower replace them; IndexOf and Split with letter case aside use positions in the capitals, so Split cuts at the wrong bytes and may panic. Missing: two texts both beyond ASCII, as the mapping of other characters is a parameter."
  },
  {
   "property": "C140",
   "status": "partial",
   "theorems": [
    "Verif.Regexp.C140_match_partial",
    "Verif.Regexp.C140_value",
    "Verif.Regexp.C140_refused",
    "Verif.Regexp.C140_run",
    "Verif.Regexp.C140_literal",
    "Verif.Regexp.C140_written",
    "Verif.Regexp.C140_whole",
    "Verif.Regexp.C140_value_false",
    "Verif.Regexp.C140_longest_false",
    "Verif.Regexp.C140_preferred",
    "Verif.Regexp.C140_signs",
    "Verif.Regexp.letters_complement",
    "Verif.Regexp.path_iff",
    "Verif.Regexp.C140_grammar",
    "Verif.Regexp.C140_parentheses",
    "Verif.Regexp.build_iff"
   ],
   "note": "Compile and FindStringIndex are written out (Lib/Regexp). False of the code (proved): RegExVal gives the empty text both for an empty match and for none, and the preferred match, not the longest; which one is preferred is characterised by the choices on the way (C140_preferred). Missing: patterns of more than 1000 bytes, with U+FFFD, counted repetition, octal or hexadecimal escapes, \\p, \\Q, flags, named groups or POSIX classes, which are a parameter. In brackets a closing bracket at the start and a hyphen at the end stand for themselves. C140_grammar: the parser accepts exactly the patterns of the grammar (groups, then repetition, then sequence, then alternatives), and every other one is an error."
  },
  {
   "property": "C141",
   "status": "partial",
   "theorems": [
    "Verif.Examples.C141_simple",
    "Verif.Examples.C141_advanced_partial",
    "Verif.Examples.C141_empty_panics",
    "Verif.Examples.C141_count_false",
    "Verif.Examples.C141_terminated_false",
    "Verif.Examples.C141_resubscribe",
    "Verif.Examples.C141_end_of_input_false",
    "Verif.Examples.C141_filter"
   ],
   "note": "False of the code (proved): an advanced example reports a lost connection as established and on standard output; a packet without measurements ends it, exactly when a message is due; the number it shows leaves out the measurements the message is about; at the end of its input SimpleResubscribe subscribes for ever. The advanced examples give SetNewMeasurementsReceiver a function of the wrong type; they are modelled as if it were handed the slice. What a reader blocks on is in C128. C141_filter reads the filter expressions with the parser of the library, for all counts below 2^63 and all tables: the first so many rows whose signal type is there and is not STAT, letter case aside."
  },
  {
   "property": "C142",
   "status": "partial",
   "theorems": [
    "Verif.Lib.C142_read_partial",
    "Verif.Lib.C142_letters",
    "Verif.Lib.C142_round_trip",
    "Verif.Lib.C142_decimal_panics",
    "Verif.Lib.C142_compare_false",
    "Verif.Lib.C142_filter_panics"
   ],
   "note": "False of the code (proved): the conversion of each such number to Decimal panics, so a text can end the program; a NaN is neither less than, equal to nor greater than any number, itself included. Left to the library: hexadecimal numbers, underscores and exponents of 100000 and more. C142_filter_panics: from the text of a filter expression to the rows, exactly when a text in a column ends the program."
  },
  {
   "property": "C143",
   "status": "partial",
   "theorems": [
    "Verif.HashSet.Comparable.C143_comparable_partial",
    "Verif.HashSet.Comparable.C143_clear_false",
    "Verif.HashSet.Comparable.C143_self_false",
    "Verif.HashSet.Comparable.C143_relations"
   ],
   "note": "Proved for every == that is symmetric and transitive, for values equal to themselves; predicates treat equal values alike, slices for SymmetricExceptWith have no two equal values. False of the code (proved): each NaN put in counts once more in the length, is never found and never removed; Clear leaves exactly these; a set with one is neither equal to, nor a subset or superset of itself. C143_relations says exactly when each of the six relations between two sets is reported, NaNs included; with a slice that has equal values the lengths mislead (C07)."
  },
  {
   "property": "C144",
   "status": "partial",
   "theorems": [
    "Verif.Lib.GuidText.C144_guid_partial",
    "Verif.Lib.GuidText.C144_refused_false",
    "Verif.Lib.GuidText.C144_text",
    "Verif.Lib.GuidText.C144_ids"
   ],
   "note": "Exactly which GUID literals are read: with all four dashes in any form, without dashes bare or in quotes. False of the code (proved): all others, those with some dashes and those in braces without dashes, are refused with an error, though the grammar has them. C144_text is from the text to what EvaluateExpression returns. Which bare digits are a GUID literal rather than an integer or identifier is in C82. C144_ids says what SelectSignalIDSet makes of them."
  }
 ]
}