{
 "claims": [
  {
   "property": "C01",
   "status": "proved",
   "theorems": [
    "Verif.Props.C01_put_then_load_t16l16v",
    "Verif.Props.C01_put_then_load_t8l8v"
   ],
   "note": ""
  },
  {
   "property": "C02",
   "status": "proved",
   "theorems": [
    "Verif.Props.C02_load_next_in_bounds"
   ],
   "note": ""
  },
  {
   "property": "C03",
   "status": "proved",
   "theorems": [
    "Verif.Props.C03_iteration_partitions_t16l16v",
    "Verif.Props.C03_iteration_partitions_t8l8v",
    "Verif.Props.C03_partition_unique"
   ],
   "note": ""
  },
  {
   "property": "C04",
   "status": "proved",
   "theorems": [
    "Verif.Props.C04_peek_agrees_with_load",
    "Verif.Props.C04_peek_enoent_iff_end",
    "Verif.Props.C04_peek_returns"
   ],
   "note": ""
  },
  {
   "property": "C05",
   "status": "proved",
   "theorems": [
    "Verif.Props.C05_next_by_tag_first_match",
    "Verif.Props.C05_next_by_tag_on_ies"
   ],
   "note": ""
  },
  {
   "property": "C06",
   "status": "proved",
   "theorems": [
    "Verif.Props.C06_update_tl_t8l8v",
    "Verif.Props.C06_put_tl_t16l16v",
    "Verif.Props.C06_put_tl_t8l8v",
    "Verif.Props.C06_update_tl_t16l16v"
   ],
   "note": ""
  },
  {
   "property": "C07",
   "status": "proved",
   "theorems": [
    "Verif.Props.C07_cmp_zero_iff_eq",
    "Verif.Props.C07_cmp_antisymmetric",
    "Verif.Props.C07_cmp_neg_iff_lt",
    "Verif.Props.C07_cmp_transitive"
   ],
   "note": ""
  },
  {
   "property": "C08",
   "status": "proved",
   "theorems": [
    "Verif.Props.C08_unordered_success",
    "Verif.Props.C08_missing_is_error",
    "Verif.Props.C08_missing_is_einval",
    "Verif.Props.C08_unordered_iff",
    "Verif.Props.C08_missing_exactly"
   ],
   "note": "Success characterised on every window; errors for missing minimums; complete iff description for tables with distinct tags."
  },
  {
   "property": "C09",
   "status": "proved",
   "theorems": [
    "Verif.Props.C09_unknown_ignored"
   ],
   "note": ""
  },
  {
   "property": "C10",
   "status": "proved",
   "theorems": [
    "Verif.Props.C10_order_independent"
   ],
   "note": ""
  },
  {
   "property": "C11",
   "status": "proved",
   "theorems": [
    "Verif.Props.C11_never_overflows",
    "Verif.Props.C11_surplus_fails",
    "Verif.Props.C11_surplus_is_enotsup",
    "Verif.Props.C11_surplus_exactly",
    "Verif.Props.C11_ordered_never_overflows",
    "Verif.Props.C11_ordered_needs_room"
   ],
   "note": ""
  },
  {
   "property": "C12",
   "status": "partial",
   "theorems": [
    "Verif.Props.C12_counterexample_count",
    "Verif.Props.C12_counterexample_skip",
    "Verif.Props.C12_ordered_mandatory_partial",
    "Verif.Props.C12_at_least_one"
   ],
   "note": "False as stated (two counterexample theorems: count_mandatory > 1 is not enforced; a full repeated IE skips over mandatory entries). Proved for tables with distinct tags and minimums of at most 1; C12_at_least_one: what holds for every table with distinct tags."
  },
  {
   "property": "C13",
   "status": "partial",
   "theorems": [
    "Verif.Props.C13_counterexample",
    "Verif.Props.C13_ordered_values_in_order_partial",
    "Verif.Props.C13_mandatory_disorder_fails_partial",
    "Verif.Props.C13_ordered_outcome"
   ],
   "note": "False as stated (counterexample: an out-of-order optional IE is silently dropped). Proved: values are taken in table order from a subsequence of the IEs; two mandatory IEs in the wrong order fail; complete description of the outcome, errors included, for tables with distinct tags (C13_ordered_outcome)."
  },
  {
   "property": "C14",
   "status": "proved",
   "theorems": [
    "Verif.Props.C14_round_trip_unordered",
    "Verif.Props.C14_nested_is_codec"
   ],
   "note": ""
  },
  {
   "property": "C15",
   "status": "proved",
   "theorems": [
    "Verif.Props.C15_round_trip_ordered"
   ],
   "note": ""
  },
  {
   "property": "C16",
   "status": "partial",
   "theorems": [
    "Verif.Props.C16_counterexample",
    "Verif.Props.C16_faithful_partial",
    "Verif.Props.C16_success_with_room_left_partial"
   ],
   "note": "False as stated (counterexample: with less than a TL of tailroom the TL is dropped, rc 0). Proved when the msgb has room, and for every success that leaves room for a TL."
  },
  {
   "property": "C17",
   "status": "proved",
   "theorems": [
    "Verif.Props.C17_over_maximum_fails",
    "Verif.Props.C17_over_maximum_is_enotsup",
    "Verif.Props.C17_no_read_beyond_maximum",
    "Verif.Props.C17_exactly"
   ],
   "note": ""
  },
  {
   "property": "C18",
   "status": "proved",
   "theorems": [
    "Verif.Props.C18_decoding_ends",
    "Verif.Props.C18_nested_ends"
   ],
   "note": ""
  },
  {
   "property": "C19",
   "status": "proved",
   "theorems": [
    "Verif.Props.C19_message_round_trip",
    "Verif.Props.C19_every_message"
   ],
   "note": ""
  },
  {
   "property": "C20",
   "status": "proved",
   "theorems": [
    "Verif.Props.C20_header_round_trip"
   ],
   "note": ""
  },
  {
   "property": "C21",
   "status": "proved",
   "theorems": [
    "Verif.Props.C21_truncated_rejected",
    "Verif.Props.C21_in_bounds"
   ],
   "note": ""
  },
  {
   "property": "C22",
   "status": "partial",
   "theorems": [
    "Verif.Props.C22_exactly",
    "Verif.Props.C22_counterexample",
    "Verif.Props.C22_window_partial",
    "Verif.Props.C22_decode_tlv_returns_partial"
   ],
   "note": "False as stated (C22_counterexample: a length field smaller than the header is accepted, the window length wraps around and decoding its IEs leaves the buffer). Proved for every message whose length field covers its header. C22_exactly: the length of the window for every header that is accepted."
  },
  {
   "property": "C23",
   "status": "proved",
   "theorems": [
    "Verif.Props.C23_encode_priority_needs_seid",
    "Verif.Props.C23_decode_priority_needs_seid"
   ],
   "note": ""
  },
  {
   "property": "C24",
   "status": "proved",
   "theorems": [
    "Verif.Props.C24_bundle_encoding",
    "Verif.Props.C24_bundle_reception"
   ],
   "note": ""
  },
  {
   "property": "C25",
   "status": "proved",
   "theorems": [
    "Verif.Props.C25_receive_loop_ends",
    "Verif.Props.C25_at_most_quarter",
    "Verif.Props.C25_progress"
   ],
   "note": ""
  },
  {
   "property": "C26",
   "status": "proved",
   "theorems": [
    "Verif.Props.C26_no_effect",
    "Verif.Props.C26_bad_message_is_skipped",
    "Verif.Props.C26_messages_are_independent"
   ],
   "note": ""
  },
  {
   "property": "C27",
   "status": "proved",
   "theorems": [
    "Verif.Props.C27_no_effect",
    "Verif.Props.C27_alone",
    "Verif.Props.C27_encode_unsupported",
    "Verif.Props.C27_decode_unsupported"
   ],
   "note": "C27_no_effect and C27_alone say it at the endpoint: a datagram (or a message of a bundle) whose IEs do not decode changes nothing and is handed to nobody; see also C26, C53."
  },
  {
   "property": "C28",
   "status": "proved",
   "theorems": [
    "Verif.Props.C28_length_is_exact",
    "Verif.Props.C28_too_long_is_emsgsize",
    "Verif.Props.C28_never_too_long"
   ],
   "note": ""
  },
  {
   "property": "C29",
   "status": "partial",
   "theorems": [
    "Verif.Props.C29_what_is_left",
    "Verif.Props.C29_counterexample",
    "Verif.Props.C29_earlier_octets_stay_partial"
   ],
   "note": "False as stated (C29_counterexample: Follow On is set on the previous message and partial octets stay). Proved: all octets of earlier messages other than that flag stay. C29_what_is_left: what a failed encoding leaves, for every failure."
  },
  {
   "property": "C30",
   "status": "proved",
   "theorems": [
    "Verif.Props.C30_in_range",
    "Verif.Props.C30_no_repetition",
    "Verif.Props.C30_period"
   ],
   "note": ""
  },
  {
   "property": "C31",
   "status": "proved",
   "theorems": [
    "Verif.Props.C31_not_zero",
    "Verif.Props.C31_no_repetition"
   ],
   "note": ""
  },
  {
   "property": "C32",
   "status": "proved",
   "theorems": [
    "Verif.Props.C32_own_messages",
    "Verif.Props.C32_transmitted",
    "Verif.Props.C32_response_mirrors_request",
    "Verif.Props.C32_request",
    "Verif.Props.C32_encoded_sequence_number"
   ],
   "note": ""
  },
  {
   "property": "C33",
   "status": "proved",
   "theorems": [
    "Verif.Props.C33_response_types",
    "Verif.Props.C33_supported_types"
   ],
   "note": ""
  },
  {
   "property": "C34",
   "status": "proved",
   "theorems": [
    "Verif.Props.C34_accessors_exist",
    "Verif.Props.C34_accessors_after_decode",
    "Verif.Props.C34_accessors_after_alloc"
   ],
   "note": ""
  },
  {
   "property": "C35",
   "status": "proved",
   "theorems": [
    "Verif.Props.C35_encodes",
    "Verif.Props.C35_decodes",
    "Verif.Props.C35_round_trip"
   ],
   "note": "Activate Predefined Rules needs a zero octet somewhere behind the IE (true in the zero-filled receive buffer); stated as a hypothesis."
  },
  {
   "property": "C36",
   "status": "partial",
   "theorems": [
    "Verif.Props.C36_apr_exactly",
    "Verif.Props.C36_counterexample",
    "Verif.Props.C36_inside_partial",
    "Verif.Props.C36_apr_partial",
    "Verif.Props.C36_too_short",
    "Verif.Props.C36_long_enough"
   ],
   "note": "False as stated for Activate Predefined Rules (C36_counterexample: strlen() of a value without NUL reads behind the IE). Proved for all 18 other decoders; for this one, proved under the assumption that a zero octet follows in memory. C36_apr_exactly: it is undefined behaviour if and only if there is no zero octet in the IE and in the memory behind it."
  },
  {
   "property": "C37",
   "status": "proved",
   "theorems": [
    "Verif.Props.C37_canonical"
   ],
   "note": ""
  },
  {
   "property": "C38",
   "status": "proved",
   "theorems": [
    "Verif.Props.C38_encoder",
    "Verif.Props.C38_decoder"
   ],
   "note": ""
  },
  {
   "property": "C39",
   "status": "proved",
   "theorems": [
    "Verif.Props.C39_f_seid",
    "Verif.Props.C39_f_teid",
    "Verif.Props.C39_ue_ip_address",
    "Verif.Props.C39_wrong_family_refused"
   ],
   "note": ""
  },
  {
   "property": "C40",
   "status": "partial",
   "theorems": [
    "Verif.Props.C40_exactly",
    "Verif.Props.C40_counterexample",
    "Verif.Props.C40_node_id_partial"
   ],
   "note": "False as stated (C40_counterexample: type IPv4 with an IPv6 address is encoded as 0.0.0.0 with success). Proved where the address has the family of the type. C40_exactly gives the octets for every Node ID, of any family."
  },
  {
   "property": "C41",
   "status": "proved",
   "theorems": [
    "Verif.Props.C41_round_trip",
    "Verif.Props.C41_overrun_refused",
    "Verif.Props.C41_zero_octet"
   ],
   "note": ""
  },
  {
   "property": "C42",
   "status": "proved",
   "theorems": [
    "Verif.Props.C42_set_get",
    "Verif.Props.C42_get"
   ],
   "note": ""
  },
  {
   "property": "C43",
   "status": "partial",
   "theorems": [
    "Verif.Props.C43_equal_exactly",
    "Verif.Props.C43_antisymmetric_exactly",
    "Verif.Props.C43_one_address",
    "Verif.Props.C43_counterexample_not_reflexive",
    "Verif.Props.C43_counterexample_not_transitive",
    "Verif.Props.C43_order_partial",
    "Verif.Props.C43_null"
   ],
   "note": "False as stated (C43_counterexample_*: not reflexive without addresses, equality not transitive with dual-stack). Proved: exactly when two compare as equal (C43_equal_exactly), exactly when the two directions contradict each other (C43_antisymmetric_exactly), and that it is a strict total order among F-SEIDs with one address each (C43_one_address), among those with IPv4, and among those with IPv6 only."
  },
  {
   "property": "C44",
   "status": "partial",
   "theorems": [
    "Verif.Props.C44_get_str_exactly",
    "Verif.Props.C44_set_get",
    "Verif.Props.C44_get",
    "Verif.Props.C44_counterexample",
    "Verif.Props.C44_get_str_partial",
    "Verif.Props.C44_f_seid_set",
    "Verif.Props.C44_get_str_fails"
   ],
   "note": "set/get proved; get_str does not write the IPv6 output when an IPv4 address is present and both are asked for (C44_counterexample); proved otherwise."
  },
  {
   "property": "C45",
   "status": "partial",
   "theorems": [
    "Verif.Props.C45_exactly",
    "Verif.Props.C45_counterexample",
    "Verif.Props.C45_round_trip_partial"
   ],
   "note": "False as stated (C45_counterexample: a blank output argument makes the conversion back fail). Proved when the output argument has the family already."
  },
  {
   "property": "C46",
   "status": "proved",
   "theorems": [
    "Verif.Props.C46_bounded_identical",
    "Verif.Props.C46_same_octets",
    "Verif.Props.C46_remaining"
   ],
   "note": "For all histories of API calls (also from within callbacks), datagrams, timers and send failures."
  },
  {
   "property": "C47",
   "status": "partial",
   "theorems": [
    "Verif.Props.C47_at_most_once",
    "Verif.Props.C47_none",
    "Verif.Props.C47_exactly_once_partial",
    "Verif.Props.C47_close_without_callback"
   ],
   "note": "False as stated (C47_close_without_callback: osmo_pfcp_endpoint_close() drops pending requests without calling resp_cb). Proved apart from this case."
  },
  {
   "property": "C48",
   "status": "proved",
   "theorems": [
    "Verif.Props.C48_response_ends_request",
    "Verif.Props.C48_second_copy"
   ],
   "note": "For a response whose sequence number belongs to one pending request (always so within a window of 2^24-1 sequence numbers, C54)."
  },
  {
   "property": "C49",
   "status": "partial",
   "theorems": [
    "Verif.Props.C49_matching_partial",
    "Verif.Props.C49_response_from_other_peer",
    "Verif.Props.C49_duplicate_from_other_peer",
    "Verif.Props.C49_exactly"
   ],
   "note": "False as stated (C49_response_from_other_peer, C49_duplicate_from_other_peer: the remote address is not compared when a response is matched with its request or a request with a cached response). Proved: kinds and sequence numbers match; C49_exactly: they are matched if and only if these are equal."
  },
  {
   "property": "C50",
   "status": "proved",
   "theorems": [
    "Verif.Props.C50_answered_from_cache"
   ],
   "note": ""
  },
  {
   "property": "C51",
   "status": "proved",
   "theorems": [
    "Verif.Props.C51_dispatch_rule",
    "Verif.Props.C51_datagram",
    "Verif.Props.C51_bundle"
   ],
   "note": ""
  },
  {
   "property": "C52",
   "status": "proved",
   "theorems": [
    "Verif.Props.C52_heartbeat_answered",
    "Verif.Props.C52_only_heartbeats",
    "Verif.Props.C52_heartbeat_datagram"
   ],
   "note": ""
  },
  {
   "property": "C53",
   "status": "proved",
   "theorems": [
    "Verif.Props.C53_queues",
    "Verif.Props.C53_is_busy",
    "Verif.Props.C53_close",
    "Verif.Props.C53_timer_assertions",
    "Verif.Props.C53_receives"
   ],
   "note": ""
  },
  {
   "property": "C54",
   "status": "proved",
   "theorems": [
    "Verif.Props.C54_unique",
    "Verif.Props.C54_response_identifies_request",
    "Verif.Props.C54_in_range",
    "Verif.Props.C54_needs_window"
   ],
   "note": "Under the explicit assumption that the counter is not set back and fewer than 2^24-1 numbers are drawn while a request is pending; C54_needs_window shows that it is needed."
  },
  {
   "property": "C55",
   "status": "partial",
   "theorems": [
    "Verif.Props.C55_not_before_partial",
    "Verif.Props.C55_no_wait",
    "Verif.Props.C55_on_time",
    "Verif.Props.C55_failure_time",
    "Verif.Props.C55_response_kept",
    "Verif.Props.C55_response_released"
   ],
   "note": "False as stated for N1 = 0 (C55_no_wait: failure is reported at once). Otherwise proved, for T1 and KEEP_RESP as configured at each transmission."
  },
  {
   "property": "C56",
   "status": "proved",
   "theorems": [
    "Verif.Props.C56_fixed",
    "Verif.Props.C56_heartbeat_request",
    "Verif.Props.C56_every_heartbeat"
   ],
   "note": "Association messages: see C61."
  },
  {
   "property": "C57",
   "status": "proved",
   "theorems": [
    "Verif.Props.C57_invalidated",
    "Verif.Props.C57_others_unchanged"
   ],
   "note": ""
  },
  {
   "property": "C58",
   "status": "partial",
   "theorems": [
    "Verif.Props.C58_at_most_once",
    "Verif.Props.C58_exactly_once_partial",
    "Verif.Props.C58_zero_timers",
    "Verif.Props.C58_not_freed",
    "Verif.Props.C58_failure_frees"
   ],
   "note": "False as stated (C58_not_freed: with N1 or T1 zero a sent message is neither queued nor freed). Proved for non-zero N1 and T1; with zero, characterised exactly."
  },
  {
   "property": "C59",
   "status": "partial",
   "theorems": [
    "Verif.Props.C59_node_id_set",
    "Verif.Props.C59_every_message",
    "Verif.Props.C59_on_the_wire_partial",
    "Verif.Props.C59_encoded_before"
   ],
   "note": "False for a message that has been encoded before it is passed (C59_encoded_before). Proved otherwise, down to what the receiver decodes."
  },
  {
   "property": "C60",
   "status": "partial",
   "theorems": [
    "Verif.Props.C60_response_exactly",
    "Verif.Props.C60_declared",
    "Verif.Props.C60_taken",
    "Verif.Props.C60_state",
    "Verif.Props.C60_associate_returns",
    "Verif.Props.C60_timer_returns",
    "Verif.Props.C60_kept",
    "Verif.Props.C60_response_handled_partial",
    "Verif.Props.C60_invalidated_peer"
   ],
   "note": "Transitions proved for all histories. \"No assertion\" is proved for associate(), the timer, and response handling unless the application invalidates the peer's own FSM instance (C60_invalidated_peer: NULL dereference then); C60_response_exactly: precisely in this case."
  },
  {
   "property": "C61",
   "status": "partial",
   "theorems": [
    "Verif.Props.C61_stays",
    "Verif.Props.C61_exactly",
    "Verif.Props.C61_accepted_partial",
    "Verif.Props.C61_callback",
    "Verif.Props.C61_evaluated",
    "Verif.Props.C61_any_response"
   ],
   "note": "False as stated (C61_any_response: any response with the sequence number and an accepting Cause, of any type and from anywhere, associates the peer). Proved: a response with the right sequence number and Cause was received; assoc_cb(true) exactly then; C61_exactly: associated if and only if such a response has been passed to the CP peer; C61_stays: from then on, always."
  },
  {
   "property": "C62",
   "status": "proved",
   "theorems": [
    "Verif.Props.C62_one",
    "Verif.Props.C62_waiting",
    "Verif.Props.C62_busy",
    "Verif.Props.C62_attempt"
   ],
   "note": ""
  },
  {
   "property": "C63",
   "status": "partial",
   "theorems": [
    "Verif.Props.C63_stuck",
    "Verif.Props.C63_retried_partial",
    "Verif.Props.C63_another_attempt",
    "Verif.Props.C63_close_stuck",
    "Verif.Props.C63_no_retry",
    "Verif.Props.C63_retry_time",
    "Verif.Props.C63_retry_starts",
    "Verif.Props.C63_not_before"
   ],
   "note": "False as stated (C63_close_stuck, C63_no_retry). Proved apart from close() and T26 = 0; and exactly: a CP peer that waits without a pending request remains stuck forever (C63_stuck)."
  },
  {
   "property": "C64",
   "status": "partial",
   "theorems": [
    "Verif.Props.C64_never_false",
    "Verif.Props.C64_stays_associated",
    "Verif.Props.C64_called_once_partial",
    "Verif.Props.C64_release_ignored"
   ],
   "note": "False as stated: nothing in the code notices a lost association (C64_release_ignored). Proved: at most one notification, never false, the peer stays associated."
  },
  {
   "property": "C65",
   "status": "partial",
   "theorems": [
    "Verif.Props.C65_balance_partial",
    "Verif.Props.C65_exactly",
    "Verif.Props.C65_held",
    "Verif.Props.C65_once",
    "Verif.Props.C65_leak",
    "Verif.Props.C65_unqueued",
    "Verif.Props.C65_received_exactly",
    "Verif.Props.C65_received_partial",
    "Verif.Props.C65_received_held"
   ],
   "note": "False as stated after invalidate_ctx() (C65_leak). Proved otherwise, and exactly for all histories: the use count is the number of holders plus the uses that invalidate_ctx() lost (C65_exactly, C65_received_exactly)."
  },
  {
   "property": "C66",
   "status": "proved",
   "theorems": [
    "Verif.Props.C66_message_definitions"
   ],
   "note": ""
  },
  {
   "property": "C67",
   "status": "proved",
   "theorems": [
    "Verif.Props.C67_decoded_is_well_formed"
   ],
   "note": ""
  },
  {
   "property": "C68",
   "status": "partial",
   "theorems": [
    "Verif.Props.C68_unsupported",
    "Verif.Props.C68_ie",
    "Verif.Props.C68_addresses",
    "Verif.Props.C68_bits",
    "Verif.Props.C68_tag",
    "Verif.Props.C68_message",
    "Verif.Props.C68_received",
    "Verif.Props.C68_log_info",
    "Verif.Props.C68_log_info_unset",
    "Verif.Props.C68_log_info_null",
    "Verif.Props.C68_struct_partial",
    "Verif.Props.C68_counterexample_no_ie",
    "Verif.Props.C68_null_partial",
    "Verif.Props.C68_ie_null_partial",
    "Verif.Props.C68_counterexample_null",
    "Verif.Props.C68_counterexample_unsupported",
    "Verif.Props.C68_surplus"
   ],
   "note": "False as stated (counterexample theorems: a struct without IEs leaves the buffer untouched without NUL; with NULL the length for a UE IP address with flags is too small; the text of a message of unsupported type is cut off but counted). Proved for all supported messages, IE values, log lines, tags, and structs with at least one IE. C68_unsupported: exactly what is written for a message of unsupported type."
  },
  {
   "property": "C69",
   "status": "partial",
   "theorems": [
    "Verif.Props.C69_unsupported",
    "Verif.Props.C69_message",
    "Verif.Props.C69_log_info",
    "Verif.Props.C69_ie",
    "Verif.Props.C69_tag",
    "Verif.Props.C69_struct_partial",
    "Verif.Props.C69_counterexample"
   ],
   "note": "False as stated for a struct without IEs (C69_counterexample: uninitialised memory is returned). Proved otherwise. C69_unsupported: the same for the allocating variants."
  },
  {
   "property": "C70",
   "status": "proved",
   "theorems": [
    "Verif.Props.C70_names",
    "Verif.Props.C70_known",
    "Verif.Props.C70_bits"
   ],
   "note": ""
  },
  {
   "property": "C71",
   "status": "proved",
   "theorems": [
    "Verif.Props.C71_flags",
    "Verif.Props.C71_printed",
    "Verif.Props.C71_same_output"
   ],
   "note": "Holds only because of a stray comma: CHV6 prints as \"chv4\" too, but with a comma in front (as recorded in tests/libosmo-pfcp/pfcp_test.ok for the destination flag)."
  },
  {
   "property": "C72",
   "status": "proved",
   "theorems": [
    "Verif.Props.C72_no_crash",
    "Verif.Props.C72_sendable",
    "Verif.Props.C72_framed_covered",
    "Verif.Props.C72_short_length",
    "Verif.Props.C72_full_buffer",
    "Verif.Props.C72_too_long",
    "Verif.Props.C72_close_in_callback",
    "Verif.Props.C72_invalidated_peer"
   ],
   "note": ""
  },
  {
   "property": "C73",
   "status": "partial",
   "theorems": [
    "Verif.Props.C73_exactly",
    "Verif.Props.C73_counterexample_gap",
    "Verif.Props.C73_counterexample_twice",
    "Verif.Props.C73_nothing_lost_partial"
   ],
   "note": "False as stated (C73_counterexample_gap, C73_counterexample_twice; also C13_counterexample). Proved: nothing is lost of IEs arranged as in the table; complete description of the outcome in C13_ordered_outcome; C73_exactly: nothing is lost if and only if the IEs are spread out as in the table."
  },
  {
   "property": "C74",
   "status": "partial",
   "theorems": [
    "Verif.Props.C74_exactly",
    "Verif.Props.C74_encoding_partial",
    "Verif.Props.C74_sent_faithfully_partial",
    "Verif.Props.C74_others_fit",
    "Verif.Props.C74_others_sent_faithfully",
    "Verif.Props.C74_counterexample"
   ],
   "note": "False as stated (C74_counterexample: a Session Modification Request of 2051 octets is sent as a datagram that decodes without error, but without its Apply Action). Proved: exact for all messages that fit, for all other types, and whenever at least four octets of the buffer are left. C74_exactly: a message that encodes is sent faithfully if and only if it has at most 2048 octets."
  },
  {
   "property": "C75",
   "status": "proved",
   "theorems": [
    "Verif.Props.C75_decoders"
   ],
   "note": ""
  },
  {
   "property": "C76",
   "status": "proved",
   "theorems": [
    "Verif.Props.C76_closed",
    "Verif.Props.C76_created",
    "Verif.Props.C76_not_bound",
    "Verif.Props.C76_bind_discards",
    "Verif.Props.C76_bound"
   ],
   "note": ""
  },
  {
   "property": "C77",
   "status": "proved",
   "theorems": [
    "Verif.Props.C77_tables",
    "Verif.Props.C77_get_msg_coding",
    "Verif.Props.C77_rejects",
    "Verif.Props.C77_compiles",
    "Verif.Props.C77_functions",
    "Verif.Props.C77_pfcp",
    "Verif.Props.C77_long_names"
   ],
   "note": ""
  },
  {
   "property": "C78",
   "status": "partial",
   "theorems": [
    "Verif.Props.C78_room_partial",
    "Verif.Props.C78_pfcp",
    "Verif.Props.C78_counterexample",
    "Verif.Props.C78_exactly"
   ],
   "note": "False as stated (C78_counterexample: two groups with the same decoded_type share the struct of the first). Proved if types are used consistently; the PFCP tables are (C78_pfcp). C78_exactly: the struct has room for every nested IE if and only if each has a counterpart in the first group of the same decoded type."
  },
  {
   "property": "C79",
   "status": "proved",
   "theorems": [
    "Verif.Props.C79_function",
    "Verif.Props.C79_decoding",
    "Verif.Props.C79_unambiguous",
    "Verif.Props.C79_datagram"
   ],
   "note": ""
  },
  {
   "property": "C80",
   "status": "partial",
   "theorems": [
    "Verif.Props.C80_encoding_partial",
    "Verif.Props.C80_counterexample",
    "Verif.Props.C80_encoding_exactly",
    "Verif.Props.C80_priority_ignored"
   ],
   "note": "False as stated (C80_counterexample: the message priority is put in bits 4-1 instead of 8-5). Proved for all messages without priority. C80_encoding_exactly: equal to the standard if and only if the priority is 0; C80_priority_ignored: a priority received is always read as 0."
  },
  {
   "property": "C81",
   "status": "partial",
   "theorems": [
    "Verif.Props.C81_follow_on_ignored",
    "Verif.Props.C81_version_reported_partial",
    "Verif.Props.C81_counterexample",
    "Verif.Props.C81_version_ignored"
   ],
   "note": "False as stated (C81_counterexample; C81_follow_on_ignored: the flag never makes a difference). Proved: the version is reported to the user, and makes no other difference (C81_version_ignored)."
  },
  {
   "property": "C82",
   "status": "proved",
   "theorems": [
    "Verif.Props.C82_sent",
    "Verif.Props.C82_integrity"
   ],
   "note": ""
  },
  {
   "property": "C83",
   "status": "proved",
   "theorems": [
    "Verif.Props.C83_distinct_numbers",
    "Verif.Props.C83_resp_cb",
    "Verif.Props.C83_dispatch",
    "Verif.Props.C83_reused_number",
    "Verif.Props.C83_unasked_response"
   ],
   "note": ""
  },
  {
   "property": "C84",
   "status": "proved",
   "theorems": [
    "Verif.Props.C84_associated"
   ],
   "note": ""
  },
  {
   "property": "C85",
   "status": "proved",
   "theorems": [
    "Verif.Props.C85_request_delivered",
    "Verif.Props.C85_response_delivered"
   ],
   "note": ""
  },
  {
   "property": "C86",
   "status": "proved",
   "theorems": [
    "Verif.Props.C86_at_most_once",
    "Verif.Props.C86_default_timers",
    "Verif.Props.C86_slow_application",
    "Verif.Props.C86_bound_is_sharp",
    "Verif.Props.C86_closed_between"
   ],
   "note": ""
  },
  {
   "property": "C87",
   "status": "proved",
   "theorems": [
    "Verif.Props.C87_not_given_up",
    "Verif.Props.C87_not_reported",
    "Verif.Props.C87_waits",
    "Verif.Props.C87_response_in_time",
    "Verif.Props.C87_reduced_timer"
   ],
   "note": ""
  },
  {
   "property": "C88",
   "status": "proved",
   "theorems": [
    "Verif.Props.C88_decode",
    "Verif.Props.C88_only_its_struct",
    "Verif.Props.C88_no_assertion",
    "Verif.Props.C88_members",
    "Verif.Props.C88_not_zero",
    "Verif.Props.C88_overlap",
    "Verif.Props.C88_too_small"
   ],
   "note": ""
  },
  {
   "property": "C89",
   "status": "proved",
   "theorems": [
    "Verif.Props.C89_encode",
    "Verif.Props.C89_round_trip"
   ],
   "note": ""
  },
  {
   "property": "C90",
   "status": "proved",
   "theorems": [
    "Verif.Props.C90_fits",
    "Verif.Props.C90_pfcp_decode",
    "Verif.Props.C90_pfcp_returns",
    "Verif.Props.C90_pfcp_encode",
    "Verif.Props.C90_needs_consistent"
   ],
   "note": ""
  },
  {
   "property": "C91",
   "status": "proved",
   "theorems": [
    "Verif.Props.C91_free",
    "Verif.Props.C91_nothing_left",
    "Verif.Props.C91_twice",
    "Verif.Props.C91_silent",
    "Verif.Props.C91_use_exactly",
    "Verif.Props.C91_safe_iff",
    "Verif.Props.C91_whole_life",
    "Verif.Props.C91_use_after_free",
    "Verif.Props.C91_associate_after_free",
    "Verif.Props.C91_retry_crash"
   ],
   "note": ""
  },
  {
   "property": "C92",
   "status": "proved",
   "theorems": [
    "Verif.Props.C92_print",
    "Verif.Props.C92_returns",
    "Verif.Props.C92_no_table",
    "Verif.Props.C92_encode_unset",
    "Verif.Props.C92_pfcp",
    "Verif.Props.C92_pfcp_message",
    "Verif.Props.C92_pfcp_received",
    "Verif.Props.C92_pfcp_fresh",
    "Verif.Props.C92_too_small"
   ],
   "note": ""
  },
  {
   "property": "C93",
   "status": "proved",
   "theorems": [
    "Verif.Props.C93_equal",
    "Verif.Props.C93_antisymmetric",
    "Verif.Props.C93_total_order"
   ],
   "note": ""
  },
  {
   "property": "C94",
   "status": "proved",
   "theorems": [
    "Verif.Props.C94_survives"
   ],
   "note": ""
  },
  {
   "property": "C95",
   "status": "proved",
   "theorems": [
    "Verif.Props.C95_response",
    "Verif.Props.C95_assoc_cb",
    "Verif.Props.C95_duplicate",
    "Verif.Props.C95_timeout",
    "Verif.Props.C95_otherwise"
   ],
   "note": ""
  },
  {
   "property": "C96",
   "status": "proved",
   "theorems": [
    "Verif.Props.C96_unmatched",
    "Verif.Props.C96_response",
    "Verif.Props.C96_next",
    "Verif.Props.C96_datagram",
    "Verif.Props.C96_bundle",
    "Verif.Props.C96_matched"
   ],
   "note": ""
  },
  {
   "property": "C97",
   "status": "proved",
   "theorems": [
    "Verif.Props.C97_every_copy_answered",
    "Verif.Props.C97_transaction",
    "Verif.Props.C97_locked_out"
   ],
   "note": "C97_every_copy_answered for each arrival, C97_transaction for the whole exchange. C97_locked_out: the condition about sequence numbers is needed, with the default timers."
  },
  {
   "property": "C98",
   "status": "proved",
   "theorems": [
    "Verif.Props.C98_header",
    "Verif.Props.C98_source",
    "Verif.Props.C98_main",
    "Verif.Props.C98_pfcp",
    "Verif.Props.C98_null_prefix"
   ],
   "note": "C98_header, C98_source: the text reads as the declarations of writeH/writeC, of which C77/C78 say what they mean; C98_main for the program; C98_pfcp joins it with C77_pfcp and C78_pfcp."
  },
  {
   "property": "C99",
   "status": "proved",
   "theorems": [
    "Verif.Props.C99_ie",
    "Verif.Props.C99_message",
    "Verif.Props.C99_bundle",
    "Verif.Props.C99_fits",
    "Verif.Props.C99_cut",
    "Verif.Props.C99_sent",
    "Verif.Props.C99_tx_crash",
    "Verif.Props.C99_tx_refused",
    "Verif.Props.C99_all_happen"
   ],
   "note": "The exact outcome behind C16, C74: C99_message and C99_bundle for osmo_pfcp_msg_encode(), C99_sent, C99_tx_crash and C99_tx_refused for the endpoint; C99_all_happen shows that each outcome occurs."
  },
  {
   "property": "C100",
   "status": "proved",
   "theorems": [
    "Verif.Props.C100_decoding",
    "Verif.Props.C100_reported",
    "Verif.Props.C100_unambiguous"
   ],
   "note": "C100_decoding is an equivalence with the specification Blames; C100_reported: at least one report, same code, nesting; C100_unambiguous: only one description fits."
  },
  {
   "property": "C101",
   "status": "partial",
   "theorems": [
    "Verif.Props.C101_unordered",
    "Verif.Props.C101_ordered_partial",
    "Verif.Props.C101_counterexample",
    "Verif.Props.C101_counterexample_null"
   ],
   "note": "Proved for unordered decoding (C101_unordered) and, but for one failure, for ordered decoding (C101_ordered_partial). The claim is false of the code: ordered decoding returns -EBADMSG without a report when a repeated IE is followed by an incomplete IE of the same tag (C101_counterexample), and a NULL table gives -ENOTSUP without a report (C101_counterexample_null)."
  },
  {
   "property": "C102",
   "status": "proved",
   "theorems": [
    "Verif.Props.C102_encoding",
    "Verif.Props.C102_reported",
    "Verif.Props.C102_codes"
   ],
   "note": "C102_encoding: what is reported; C102_reported and C102_codes: one report per level of nesting, which error codes."
  },
  {
   "property": "C103",
   "status": "proved",
   "theorems": [
    "Verif.Props.C103_associates",
    "Verif.Props.C103_rejected"
   ],
   "note": "C103_associates under the assumptions of C97 (an endpoint that is locked out by the sequence number of another one, C97_locked_out, is never associated); C103_rejected: the other direction, for the whole history."
  },
  {
   "property": "C104",
   "status": "proved",
   "theorems": [
    "Verif.Props.C104_ordered_exactly",
    "Verif.Props.C104_all_octets"
   ],
   "note": "C104_ordered_exactly with C104_all_octets. Entries for no IE at all (count_max 0) are excluded: see C11_ordered_needs_room."
  },
  {
   "property": "C105",
   "status": "proved",
   "theorems": [
    "Verif.Props.C105_unordered_exactly",
    "Verif.Props.C105_sound"
   ],
   "note": "C105_unordered_exactly with C104_all_octets; C105_sound: nested tables meet the hypotheses of C104 and C105. More than 4096 entries: see C08 to C11."
  },
  {
   "property": "C106",
   "status": "proved",
   "theorems": [
    "Verif.Props.C106_encoding_exactly",
    "Verif.Props.C106_plain",
    "Verif.Props.C106_nested",
    "Verif.Props.C106_ies",
    "Verif.Props.C106_message",
    "Verif.Props.C106_too_long"
   ],
   "note": "C106_encoding_exactly for any table, C106_message for all PFCP messages. C106_too_long: a value too long for the length field is encoded with length 0 and success (a finding; it cannot occur with the 2048 octets of PFCP messages)."
  },
  {
   "property": "C107",
   "status": "proved",
   "theorems": [
    "Verif.Props.C107_ies",
    "Verif.Props.C107_message"
   ],
   "note": "C107_ies for the IEs, C107_message for messages. Examples of both outcomes, also within grouped IEs."
  },
  {
   "property": "C108",
   "status": "proved",
   "theorems": [
    "Verif.Props.C108_message",
    "Verif.Props.C108_addresses",
    "Verif.Props.C108_datagrams"
   ],
   "note": "C108_message for one message, C108_datagrams for datagrams (by their meaning), C108_addresses for histories. Examples: a CP peer is associated by a Session Deletion Response from a stranger; each of the four aspects and the address matter."
  },
  {
   "property": "C109",
   "status": "proved",
   "theorems": [
    "Verif.Props.C109_associated",
    "Verif.Props.C109_retry",
    "Verif.Props.C109_request",
    "Verif.Props.C109_isolated",
    "Verif.Props.C109_elsewhere",
    "Verif.Props.C109_untouched"
   ],
   "note": "C109_associated, C109_retry, C109_request: by log decomposition. C109_isolated: nothing else changes its state. C109_elsewhere, C109_untouched: events that do not call osmo_pfcp_cp_peer_associate() for it and are not its timer."
  },
  {
   "property": "C110",
   "status": "proved",
   "theorems": [
    "Verif.Props.C110_put_then_load",
    "Verif.Props.C110_known_length",
    "Verif.Props.C110_search",
    "Verif.Props.C110_peek",
    "Verif.Props.C110_library_formats",
    "Verif.Props.C110_tliv",
    "Verif.Props.C110_tliv_counted",
    "Verif.Props.C110_txlxv",
    "Verif.Props.C110_growing_tl"
   ],
   "note": "C110_put_then_load, C110_known_length (any TL size), C110_search, C110_peek. C110_growing_tl: why the size of the TL must not depend on the length. C110_tliv, C110_tliv_counted, C110_txlxv, C110_library_formats: formats that keep the contracts."
  },
  {
   "property": "C111",
   "status": "partial",
   "theorems": [
    "Verif.Props.C111_accepted_exactly",
    "Verif.Props.C111_same_partial",
    "Verif.Props.C111_loops_same_partial",
    "Verif.Props.C111_in_bounds_partial",
    "Verif.Props.C111_ends_partial",
    "Verif.Props.C111_library_formats",
    "Verif.Props.C111_wrapped_length",
    "Verif.Props.C111_endless"
   ],
   "note": "False as stated: the sum of value pointer and length wraps around (C111_wrapped_length: the format of the library's own tliv_test.c accepts an IE of 2^64 - 1 octets; C111_endless: reading never ends). C111_accepted_exactly: exactly which IEs are accepted. Proved for formats whose lengths cannot wrap around (_partial), among them those of the library (C111_library_formats)."
  },
  {
   "property": "C112",
   "status": "proved",
   "theorems": [
    "Verif.Props.C112_round_trip",
    "Verif.Props.C112_nested_is_codec",
    "Verif.Props.C112_format_independent",
    "Verif.Props.C112_ordered"
   ],
   "note": "C112_round_trip, C112_nested_is_codec (any depth), C112_format_independent, C112_ordered."
  },
  {
   "property": "C113",
   "status": "proved",
   "theorems": [
    "Verif.Props.C113_pieces",
    "Verif.Props.C113_put_then_load",
    "Verif.Props.C113_round_trip",
    "Verif.Props.C113_nested_is_codec",
    "Verif.Props.C113_still",
    "Verif.Props.C113_growing_tl"
   ],
   "note": "C113_pieces, C113_put_then_load, C113_round_trip, C113_nested_is_codec (any depth), C113_still; C113_growing_tl: a format with TLs that grow with the length keeps the contract."
  },
  {
   "property": "C114",
   "status": "proved",
   "theorems": [
    "Verif.Props.C114_request_age",
    "Verif.Props.C114_response_age",
    "Verif.Props.C114_was_sent",
    "Verif.Props.C114_size",
    "Verif.Props.C114_at_rest",
    "Verif.Props.C114_comes_to_rest",
    "Verif.Props.C114_time_passes"
   ],
   "note": "C114_request_age, C114_response_age, C114_size, C114_at_rest, C114_comes_to_rest (every history of time and timers only), C114_time_passes (there is one)."
  },
  {
   "property": "C115",
   "status": "proved",
   "theorems": [
    "Verif.Props.C115_like_a_reader",
    "Verif.Props.C115_errors_stay",
    "Verif.Props.C115_start_anew"
   ],
   "note": "C115_like_a_reader (simulation), C115_errors_stay, C115_start_anew."
  },
  {
   "property": "C116",
   "status": "proved",
   "theorems": [
    "Verif.Props.C116_octets",
    "Verif.Props.C116_only",
    "Verif.Props.C116_received"
   ],
   "note": "C116_octets, C116_only, C116_received."
  },
  {
   "property": "C117",
   "status": "proved",
   "theorems": [
    "Verif.Props.C117_trace",
    "Verif.Props.C117_no_amplification"
   ],
   "note": "C117_trace, C117_no_amplification."
  },
  {
   "property": "C118",
   "status": "proved",
   "theorems": [
    "Verif.Props.C118_delivery",
    "Verif.Props.C118_echoes"
   ],
   "note": "C118_delivery, C118_echoes; an example reaches the bound."
  },
  {
   "property": "C119",
   "status": "proved",
   "theorems": [
    "Verif.Props.C119_exactly",
    "Verif.Props.C119_others",
    "Verif.Props.C119_unsolicited"
   ],
   "note": "C119_exactly, C119_others, C119_unsolicited."
  },
  {
   "property": "C120",
   "status": "proved",
   "theorems": [
    "Verif.Props.C120_answered_exactly_once"
   ],
   "note": "C120_answered_exactly_once; the example: a request received three times."
  },
  {
   "property": "C121",
   "status": "proved",
   "theorems": [
    "Verif.Props.C121_noise",
    "Verif.Props.C121_effects",
    "Verif.Props.C121_undisturbed"
   ],
   "note": "C121_noise (the whole log and state), C121_effects (what is sent, CP peers and resp_cb(), without numbers), C121_undisturbed (the converse: noise prevents nothing). Timers are identified by the place of their message in its queue, since additional messages change the numbers that the model gives to messages."
  },
  {
   "property": "C122",
   "status": "proved",
   "theorems": [
    "Verif.Props.C122_split",
    "Verif.Props.C122_bundled",
    "Verif.Props.C122_unbundled"
   ],
   "note": "C122_split (one message and whatever follows), C122_bundled, C122_unbundled (the converse, with the exception of a callback that closes the endpoint; an example shows it)."
  },
  {
   "property": "C123",
   "status": "proved",
   "theorems": [
    "Verif.Props.C123_later",
    "Verif.Props.C123_created",
    "Verif.Props.C123_clocks",
    "Verif.Props.C123_clocks_reached"
   ],
   "note": "C123_later, C123_created, C123_clocks, C123_clocks_reached. Time is a natural number of ms in the model; wrap-around of struct timeval is not modelled."
  },
  {
   "property": "C124",
   "status": "proved",
   "theorems": [
    "Verif.Props.C124_timer_order",
    "Verif.Props.C124_timer_crash"
   ],
   "note": "C124_timer_order, C124_timer_crash. Timers of CP peers (T26) are not included: they draw sequence numbers, so their order shows in the numbers of the requests."
  },
  {
   "property": "C125",
   "status": "proved",
   "theorems": [
    "Verif.Props.C125_past",
    "Verif.Props.C125_as_new",
    "Verif.Props.C125_restart"
   ],
   "note": "C125_past, C125_as_new, C125_restart. `asNew` takes over sequence number, CP peers and use counts; a new endpoint gets them by osmo_pfcp_endpoint_set_seq_nr_state() and osmo_pfcp_cp_peer_alloc()."
  }
 ]
}