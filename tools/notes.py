notes={
'C08':'Success characterised on every window; errors for missing minimums; complete iff description for tables with distinct tags.',
'C12':'False as stated (two counterexample theorems: count_mandatory > 1 is not enforced; a full repeated IE skips over mandatory entries). Proved for tables with distinct tags and minimums of at most 1; C12_at_least_one: what holds for every table with distinct tags.',
'C13':'False as stated (counterexample: an out-of-order optional IE is silently dropped). Proved: values are taken in table order from a subsequence of the IEs; two mandatory IEs in the wrong order fail; complete description of the outcome, errors included, for tables with distinct tags (C13_ordered_outcome).',
'C16':'False as stated (counterexample: with less than a TL of tailroom the TL is dropped, rc 0). Proved when the msgb has room, and for every success that leaves room for a TL.',
'C35':'Activate Predefined Rules needs a zero octet somewhere behind the IE (true in the zero-filled receive buffer); stated as a hypothesis.',
'C36':'False as stated for Activate Predefined Rules (C36_counterexample: strlen() of a value without NUL reads behind the IE). Proved for all 18 other decoders; for this one, proved under the assumption that a zero octet follows in memory. C36_apr_exactly: it is undefined behaviour if and only if there is no zero octet in the IE and in the memory behind it.',
'C40':'False as stated (C40_counterexample: type IPv4 with an IPv6 address is encoded as 0.0.0.0 with success). Proved where the address has the family of the type. C40_exactly gives the octets for every Node ID, of any family.',
'C43':'False as stated (C43_counterexample_*: not reflexive without addresses, equality not transitive with dual-stack). Proved: exactly when two compare as equal (C43_equal_exactly), exactly when the two directions contradict each other (C43_antisymmetric_exactly), and that it is a strict total order among F-SEIDs with one address each (C43_one_address), among those with IPv4, and among those with IPv6 only.',
'C44':'set/get proved; get_str does not write the IPv6 output when an IPv4 address is present and both are asked for (C44_counterexample); proved otherwise.',
'C45':'False as stated (C45_counterexample: a blank output argument makes the conversion back fail). Proved when the output argument has the family already.',
'C22':'False as stated (C22_counterexample: a length field smaller than the header is accepted, the window length wraps around and decoding its IEs leaves the buffer). Proved for every message whose length field covers its header. C22_exactly: the length of the window for every header that is accepted.',
'C29':'False as stated (C29_counterexample: Follow On is set on the previous message and partial octets stay). Proved: all octets of earlier messages other than that flag stay. C29_what_is_left: what a failed encoding leaves, for every failure.',
'C27':'C27_no_effect and C27_alone say it at the endpoint: a datagram (or a message of a bundle) whose IEs do not decode changes nothing and is handed to nobody; see also C26, C53.',
'C46':'For all histories of API calls (also from within callbacks), datagrams, timers and send failures.',
'C47':'False as stated (C47_close_without_callback: osmo_pfcp_endpoint_close() drops pending requests without calling resp_cb). Proved apart from this case.',
'C58':'False as stated (C58_not_freed: with N1 or T1 zero a sent message is neither queued nor freed). Proved for non-zero N1 and T1; with zero, characterised exactly.',
'C48':'For a response whose sequence number belongs to one pending request (always so within a window of 2^24-1 sequence numbers, C54).',
'C49':'False as stated (C49_response_from_other_peer, C49_duplicate_from_other_peer: the remote address is not compared when a response is matched with its request or a request with a cached response). Proved: kinds and sequence numbers match; C49_exactly: they are matched if and only if these are equal.',
'C54':'Under the explicit assumption that the counter is not set back and fewer than 2^24-1 numbers are drawn while a request is pending; C54_needs_window shows that it is needed.',
'C56':'Association messages: see C61.',
'C55':'False as stated for N1 = 0 (C55_no_wait: failure is reported at once). Otherwise proved, for T1 and KEEP_RESP as configured at each transmission.',
'C59':'False for a message that has been encoded before it is passed (C59_encoded_before). Proved otherwise, down to what the receiver decodes.',
'C60':'Transitions proved for all histories. "No assertion" is proved for associate(), the timer, and response handling unless the application invalidates the peer\'s own FSM instance (C60_invalidated_peer: NULL dereference then); C60_response_exactly: precisely in this case.',
'C61':'False as stated (C61_any_response: any response with the sequence number and an accepting Cause, of any type and from anywhere, associates the peer). Proved: a response with the right sequence number and Cause was received; assoc_cb(true) exactly then; C61_exactly: associated if and only if such a response has been passed to the CP peer; C61_stays: from then on, always.',
'C63':'False as stated (C63_close_stuck, C63_no_retry). Proved apart from close() and T26 = 0; and exactly: a CP peer that waits without a pending request remains stuck forever (C63_stuck).',
'C64':'False as stated: nothing in the code notices a lost association (C64_release_ignored). Proved: at most one notification, never false, the peer stays associated.',
'C65':'False as stated after invalidate_ctx() (C65_leak). Proved otherwise, and exactly for all histories: the use count is the number of holders plus the uses that invalidate_ctx() lost (C65_exactly, C65_received_exactly).',
'C68':'False as stated (counterexample theorems: a struct without IEs leaves the buffer untouched without NUL; with NULL the length for a UE IP address with flags is too small; the text of a message of unsupported type is cut off but counted). Proved for all supported messages, IE values, log lines, tags, and structs with at least one IE. C68_unsupported: exactly what is written for a message of unsupported type.',
'C69':'False as stated for a struct without IEs (C69_counterexample: uninitialised memory is returned). Proved otherwise. C69_unsupported: the same for the allocating variants.',
'C73':'False as stated (C73_counterexample_gap, C73_counterexample_twice; also C13_counterexample). Proved: nothing is lost of IEs arranged as in the table; complete description of the outcome in C13_ordered_outcome; C73_exactly: nothing is lost if and only if the IEs are spread out as in the table.',
'C74':'False as stated (C74_counterexample: a Session Modification Request of 2051 octets is sent as a datagram that decodes without error, but without its Apply Action). Proved: exact for all messages that fit, for all other types, and whenever at least four octets of the buffer are left. C74_exactly: a message that encodes is sent faithfully if and only if it has at most 2048 octets.',
'C71':'Holds only because of a stray comma: CHV6 prints as "chv4" too, but with a comma in front (as recorded in tests/libosmo-pfcp/pfcp_test.ok for the destination flag).',
'C78':'False as stated (C78_counterexample: two groups with the same decoded_type share the struct of the first). Proved if types are used consistently; the PFCP tables are (C78_pfcp). C78_exactly: the struct has room for every nested IE if and only if each has a counterpart in the first group of the same decoded type.',
'C80':'False as stated (C80_counterexample: the message priority is put in bits 4-1 instead of 8-5). Proved for all messages without priority. C80_encoding_exactly: equal to the standard if and only if the priority is 0; C80_priority_ignored: a priority received is always read as 0.',
'C81':'False as stated (C81_counterexample; C81_follow_on_ignored: the flag never makes a difference). Proved: the version is reported to the user, and makes no other difference (C81_version_ignored).',
'C97':'C97_every_copy_answered for each arrival, C97_transaction for the whole exchange. C97_locked_out: the condition about sequence numbers is needed, with the default timers.',
'C98':'C98_header, C98_source: the text reads as the declarations of writeH/writeC, of which C77/C78 say what they mean; C98_main for the program; C98_pfcp joins it with C77_pfcp and C78_pfcp.',
'C99':'The exact outcome behind C16, C74: C99_message and C99_bundle for osmo_pfcp_msg_encode(), C99_sent, C99_tx_crash and C99_tx_refused for the endpoint; C99_all_happen shows that each outcome occurs.',
'C100':'C100_decoding is an equivalence with the specification Blames; C100_reported: at least one report, same code, nesting; C100_unambiguous: only one description fits.',
'C101':'Proved for unordered decoding (C101_unordered) and, but for one failure, for ordered decoding (C101_ordered_partial). The claim is false of the code: ordered decoding returns -EBADMSG without a report when a repeated IE is followed by an incomplete IE of the same tag (C101_counterexample), and a NULL table gives -ENOTSUP without a report (C101_counterexample_null).',
'C102':'C102_encoding: what is reported; C102_reported and C102_codes: one report per level of nesting, which error codes.',
'C103':'C103_associates under the assumptions of C97 (an endpoint that is locked out by the sequence number of another one, C97_locked_out, is never associated); C103_rejected: the other direction, for the whole history.',
'C104':'C104_ordered_exactly with C104_all_octets. Entries for no IE at all (count_max 0) are excluded: see C11_ordered_needs_room.',
'C105':'C105_unordered_exactly with C104_all_octets; C105_sound: nested tables meet the hypotheses of C104 and C105. More than 4096 entries: see C08 to C11.',
'C106':'C106_encoding_exactly for any table, C106_message for all PFCP messages. C106_too_long: a value too long for the length field is encoded with length 0 and success (a finding; it cannot occur with the 2048 octets of PFCP messages).',
'C107':'C107_ies for the IEs, C107_message for messages. Examples of both outcomes, also within grouped IEs.',
'C108':'C108_message for one message, C108_datagrams for datagrams (by their meaning), C108_addresses for histories. Examples: a CP peer is associated by a Session Deletion Response from a stranger; each of the four aspects and the address matter.',
'C109':'C109_associated, C109_retry, C109_request: by log decomposition. C109_isolated: nothing else changes its state. C109_elsewhere, C109_untouched: events that do not call osmo_pfcp_cp_peer_associate() for it and are not its timer.',
'C110':'C110_put_then_load, C110_known_length (any TL size), C110_search, C110_peek. C110_growing_tl: why the size of the TL must not depend on the length. C110_tliv, C110_tliv_counted, C110_txlxv, C110_library_formats: formats that keep the contracts.',
'C111':"False as stated: the sum of value pointer and length wraps around (C111_wrapped_length: the format of the library's own tliv_test.c accepts an IE of 2^64 - 1 octets; C111_endless: reading never ends). C111_accepted_exactly: exactly which IEs are accepted. Proved for formats whose lengths cannot wrap around (_partial), among them those of the library (C111_library_formats).",
'C112':'C112_round_trip, C112_nested_is_codec (any depth), C112_format_independent, C112_ordered.',
'C113':'C113_pieces, C113_put_then_load, C113_round_trip, C113_nested_is_codec (any depth), C113_still; C113_growing_tl: a format with TLs that grow with the length keeps the contract.',
'C114':'C114_request_age, C114_response_age, C114_size, C114_at_rest, C114_comes_to_rest (every history of time and timers only), C114_time_passes (there is one).',
'C115':'C115_like_a_reader (simulation), C115_errors_stay, C115_start_anew.',
'C116':'C116_octets, C116_only, C116_received.',
'C117':'C117_trace, C117_no_amplification.',
'C118':'C118_delivery, C118_echoes; an example reaches the bound.',
'C119':'C119_exactly, C119_others, C119_unsolicited.',
'C120':'C120_answered_exactly_once; the example: a request received three times.',
'C121':'C121_noise (the whole log and state), C121_effects (what is sent, CP peers and resp_cb(), without numbers), C121_undisturbed (the converse: noise prevents nothing). Timers are identified by the place of their message in its queue, since additional messages change the numbers that the model gives to messages.',
'C122':'C122_split (one message and whatever follows), C122_bundled, C122_unbundled (the converse, with the exception of a callback that closes the endpoint; an example shows it).',
'C123':'C123_later, C123_created, C123_clocks, C123_clocks_reached. Time is a natural number of ms in the model; wrap-around of struct timeval is not modelled.',
'C124':'C124_timer_order, C124_timer_crash. Timers of CP peers (T26) are not included: they draw sequence numbers, so their order shows in the numbers of the requests.',
'C125':'C125_past, C125_as_new, C125_restart. `asNew` takes over sequence number, CP peers and use counts; a new endpoint gets them by osmo_pfcp_endpoint_set_seq_nr_state() and osmo_pfcp_cp_peer_alloc().',
}
partial=set()
na={}
