{"id": "C01", "title": "TLV put/load round trip", "statement": "Any sequence of IEs written with osmo_gtlv_put_tl()/msgb_put()/osmo_gtlv_put_update_tl() is read back by repeated osmo_gtlv_load_next() as exactly the same sequence of (tag, value) pairs followed by end-of-buffer, for osmo_t8l8v_cfg and osmo_t16l16v_cfg.", "quantifier": "all finite sequences of (tag,value) whose tags and lengths fit the configuration", "why_tests_cant": "unbounded number of IEs, tags, lengths and values", "anchors": ["src/libosmo-gtlv/gtlv.c:osmo_gtlv_put_tli,osmo_gtlv_put_update_tl,osmo_gtlv_load_next", "src/libosmo-gtlv/gtlv.c:osmo_t8l8v_cfg,osmo_t16l16v_cfg"]}
{"id": "C02", "title": "TLV loading stays in bounds", "statement": "osmo_gtlv_load_next() never reads a byte outside [src.data, src.data+src.len), and whenever it returns 0 with val != NULL the value [val, val+len) lies entirely inside that window and starts after the previous IE's end.", "quantifier": "all buffers and all reachable loader states", "why_tests_cant": "every byte string of every length is a possible input; a test cannot show absence of over-reads", "anchors": ["src/libosmo-gtlv/gtlv.c:next_tl_valid,osmo_gtlv_load_next"]}
{"id": "C03", "title": "TLV iteration terminates and partitions the buffer", "statement": "Iterating osmo_gtlv_load_next() over any buffer of n bytes stops after at most n/tl_min_size+1 calls; if it stops without error the buffer is exactly the concatenation of the TLVs returned, and it reports an error exactly when the buffer is not such a concatenation.", "quantifier": "all byte strings", "why_tests_cant": "needs every truncation and every garbage suffix", "anchors": ["src/libosmo-gtlv/gtlv.c:osmo_gtlv_load_next"]}
{"id": "C04", "title": "Peek agrees with load and is pure", "statement": "osmo_gtlv_load_peek_tag() never changes the loader; if osmo_gtlv_load_next() would return an IE then peek returns 0 and that IE's tag/instance, and peek returns -ENOENT exactly when load_next would report the end of the buffer.", "quantifier": "all buffers and loader states", "why_tests_cant": "universally quantified agreement of two functions", "anchors": ["src/libosmo-gtlv/gtlv.c:osmo_gtlv_load_peek_tag"]}
{"id": "C05", "title": "Skip-to-tag finds the first match and is atomic", "statement": "osmo_gtlv_load_next_by_tag_inst() returns 0 exactly when iterating load_next from the current position reaches an IE with that tag/instance before an error, positions the loader on the first such IE, and otherwise leaves the loader unchanged (returning -ENOENT at the end of the buffer or the parse error).", "quantifier": "all buffers, positions, tags", "why_tests_cant": "all positions and all buffers", "anchors": ["src/libosmo-gtlv/gtlv.c:osmo_gtlv_load_next_by_tag_inst,osmo_gtlv_load_next_by_tag"]}
{"id": "C06", "title": "TL store limits", "statement": "osmo_gtlv_put_tl() fails with -EINVAL for a tag beyond the tag width, -EMSGSIZE for a length beyond the length width, -ENOSPC when the tailroom is too small, and in those cases appends nothing; otherwise it appends exactly the TL octets in network byte order. osmo_gtlv_put_update_tl() rewrites only the L field, to the number of octets appended since.", "quantifier": "all tags, lengths, tailrooms and msgb contents", "why_tests_cant": "boundary behaviour over the whole integer range", "anchors": ["src/libosmo-gtlv/gtlv.c:t8l8v_store_tl,t16l16v_store_tl,osmo_gtlv_put_tli,osmo_gtlv_put_update_tl"]}
{"id": "C07", "title": "Tag/instance comparison is a total order", "statement": "osmo_gtlv_tag_inst_cmp() is a total order on (tag, optional instance), NULL first: reflexive, antisymmetric, transitive, total, and zero exactly when tag, presence and (if present) instance agree.", "quantifier": "all triples of (possibly NULL) tag instances", "why_tests_cant": "law over all triples", "anchors": ["src/libosmo-gtlv/gtlv.c:osmo_gtlv_tag_inst_cmp"]}
{"id": "C08", "title": "Unordered decode enforces mandatory IEs", "statement": "If osmo_gtlvs_decode() (unordered) returns 0, then every IE defined without presence flag or count occurred, every repeated IE occurred at least count_mandatory times, and no repeated IE holds more than count_max values; if one of these minimums is missed it returns an error.", "quantifier": "all coding tables (up to 4096 entries) and all byte strings", "why_tests_cant": "all tables and inputs", "anchors": ["src/libosmo-gtlv/gtlv_dec_enc.c:osmo_gtlvs_decode_unordered"]}
{"id": "C09", "title": "Unknown IEs are ignored", "statement": "For unordered decoding, removing all IEs whose tag is not defined in the coding table from a well-formed TLV structure changes neither the return code nor the decoded struct.", "quantifier": "all coding tables, all TLV structures, any number and position of unknown IEs", "why_tests_cant": "positions and contents unbounded", "anchors": ["src/libosmo-gtlv/gtlv_dec_enc.c:osmo_gtlvs_decode_unordered"]}
{"id": "C10", "title": "Unordered decode is order independent", "statement": "Permuting the IEs of a TLV structure while keeping the relative order of IEs of equal tag does not change the outcome of a successful unordered decode: same return code and same decoded struct.", "quantifier": "all coding tables, all TLV structures, all such permutations", "why_tests_cant": "factorially many permutations of unboundedly long inputs", "anchors": ["src/libosmo-gtlv/gtlv_dec_enc.c:osmo_gtlvs_decode_unordered"]}
{"id": "C11", "title": "Surplus IEs are rejected, never overflow", "statement": "If a known tag occurs more often than all struct members for that tag can hold, unordered decoding fails, and the error is -ENOTSUP unless the value of one of the IEs cannot be decoded. Neither unordered nor ordered decoding ever writes beyond an array (count never exceeds count_max at any point).", "quantifier": "all coding tables and byte strings", "why_tests_cant": "memory-safety for any repetition count", "anchors": ["src/libosmo-gtlv/gtlv_dec_enc.c:osmo_gtlvs_decode_unordered", "src/libosmo-gtlv/gtlv_dec_enc.c:osmo_gtlvs_decode_ordered"]}
{"id": "C12", "title": "Ordered decode enforces mandatory IEs", "statement": "If ordered decoding returns 0 then every IE defined as mandatory occurred, and every repeated IE occurred at least count_mandatory times.", "quantifier": "all coding tables and byte strings", "why_tests_cant": "all tables and inputs", "anchors": ["src/libosmo-gtlv/gtlv_dec_enc.c:osmo_gtlvs_decode_ordered"]}
{"id": "C13", "title": "Ordered decode rejects disorder", "statement": "As documented for OSMO_GTLV_NESTED_IES_ORDERED, ordered decoding fails if the defined IEs appear in a different order than in the coding table.", "quantifier": "all coding tables and byte strings", "why_tests_cant": "all permutations", "anchors": ["src/libosmo-gtlv/gtlv_dec_enc.c:osmo_gtlvs_decode_ordered", "include/osmocom/gtlv/gtlv_dec_enc.h:osmo_gtlv_coding_nested_ies_ordered"]}
{"id": "C14", "title": "Encode/decode round trip (unordered)", "statement": "For every coding table with distinct tags and invertible value codecs, and every struct that satisfies the table's presence/count constraints, osmo_gtlvs_decode(unordered) of the output of osmo_gtlvs_encode() returns 0 and reproduces the struct, including nested IEs.", "quantifier": "all tables, all structs, any nesting depth", "why_tests_cant": "unbounded tables and values", "anchors": ["src/libosmo-gtlv/gtlv_dec_enc.c:osmo_gtlvs_encode,osmo_gtlvs_decode"]}
{"id": "C15", "title": "Encode/decode round trip (ordered)", "statement": "The same round trip holds for ordered decoding, at any nesting level.", "quantifier": "all tables, all structs", "why_tests_cant": "unbounded tables and values", "anchors": ["src/libosmo-gtlv/gtlv_dec_enc.c:osmo_gtlvs_encode,osmo_gtlvs_decode_ordered"]}
{"id": "C16", "title": "Encoding success means a faithful encoding", "statement": "Whenever osmo_gtlvs_encode() returns 0, the bytes appended to the msgb are exactly the TLVs of the struct's present IEs in table order, each with a correct length.", "quantifier": "all tables, structs and remaining tailrooms", "why_tests_cant": "every remaining tailroom and value size", "anchors": ["src/libosmo-gtlv/gtlv_dec_enc.c:osmo_gtlvs_encode"]}
{"id": "C17", "title": "Encoder count limit", "statement": "osmo_gtlvs_encode() fails when a repeated IE's count exceeds count_max, whatever the other contents: with -ENOTSUP, unless the encoder of a value before that fails (then with its error). It never reads an array element at or beyond count_max.", "quantifier": "all tables and counts", "why_tests_cant": "all counts", "anchors": ["src/libosmo-gtlv/gtlv_dec_enc.c:osmo_gtlvs_encode"]}
{"id": "C18", "title": "Decoding terminates", "statement": "Decoding any byte string against any coding table whose configuration consumes at least one octet per TL finishes within a number of steps bounded by the input length.", "quantifier": "all byte strings and tables", "why_tests_cant": "non-termination cannot be tested", "anchors": ["src/libosmo-gtlv/gtlv_dec_enc.c:osmo_gtlvs_decode_unordered,osmo_gtlvs_decode_ordered"]}
{"id": "C19", "title": "PFCP message round trip", "statement": "For every supported PFCP message type and every osmo_pfcp_msg whose IEs are in range, decoding the bytes produced by osmo_pfcp_msg_encode() with osmo_pfcp_msg_decode_header()+osmo_pfcp_msg_decode_tlv() reproduces header and IEs.", "quantifier": "all message types and all in-range contents that fit the buffer", "why_tests_cant": "product of all IE values", "anchors": ["src/libosmo-pfcp/pfcp_msg.c:osmo_pfcp_msg_encode,osmo_pfcp_msg_decode_header,osmo_pfcp_msg_decode_tlv", "src/libosmo-pfcp/gen__pfcp_ies_auto.c"]}
{"id": "C20", "title": "Header round trip", "statement": "Encoding then decoding a PFCP header preserves version, message type, presence flags, SEID and priority, and the sequence number modulo 2^24; the length field equals the octets following the first four.", "quantifier": "all header values", "why_tests_cant": "2^64 SEIDs x 2^24 sequence numbers", "anchors": ["src/libosmo-pfcp/pfcp_msg.c:enc_pfcp_header,osmo_pfcp_msg_decode_header"]}
{"id": "C21", "title": "Truncated headers are rejected", "statement": "osmo_pfcp_msg_decode_header() returns a negative code, without reading beyond the data, for every datagram shorter than 4 octets, shorter than its header (8 or 16 octets), or shorter than its own length field; the returned length never exceeds the available data.", "quantifier": "all byte strings", "why_tests_cant": "all truncations of all datagrams", "anchors": ["src/libosmo-pfcp/pfcp_msg.c:osmo_pfcp_msg_decode_header"]}
{"id": "C22", "title": "Header decoding yields an in-bounds payload", "statement": "Whenever osmo_pfcp_msg_decode_header() returns success, the TLV window it hands out lies within the message it announces (header_len + tlv.src.len == returned length).", "quantifier": "all byte strings", "why_tests_cant": "all length fields", "anchors": ["src/libosmo-pfcp/pfcp_msg.c:osmo_pfcp_msg_decode_header"]}
{"id": "C23", "title": "Message priority requires SEID", "statement": "Encoding a message with priority but without SEID fails with -EINVAL, and decoding a datagram with the MP flag but without the S flag fails.", "quantifier": "all messages and datagrams", "why_tests_cant": "all contents", "anchors": ["src/libosmo-pfcp/pfcp_msg.c:enc_pfcp_header,osmo_pfcp_msg_decode_header"]}
{"id": "C24", "title": "Bundles round trip", "statement": "Encoding messages m1..mn one after the other into one msgb yields a bundle in which exactly the non-last messages have the Follow-On flag, and receiving that bundle yields exactly m1..mn in order.", "quantifier": "all n and all message sequences that fit", "why_tests_cant": "unbounded sequences", "anchors": ["src/libosmo-pfcp/pfcp_msg.c:osmo_pfcp_msg_encode", "src/libosmo-pfcp/pfcp_endpoint.c:osmo_pfcp_fd_cb"]}
{"id": "C25", "title": "Receive loop terminates", "statement": "Processing any datagram consumes at least 4 octets per message and terminates after at most len/4 messages.", "quantifier": "all datagrams", "why_tests_cant": "non-termination cannot be tested", "anchors": ["src/libosmo-pfcp/pfcp_endpoint.c:osmo_pfcp_fd_cb", "src/libosmo-pfcp/pfcp_msg.c:osmo_pfcp_msg_decode_header"]}
{"id": "C26", "title": "Bad message in a bundle does not affect its neighbours", "statement": "If a bundled message has a valid header but undecodable IEs, it is not dispatched and all other messages of the bundle are handled exactly as if it were absent.", "quantifier": "all bundles, all positions", "why_tests_cant": "all positions and contents", "anchors": ["src/libosmo-pfcp/pfcp_endpoint.c:osmo_pfcp_fd_cb"]}
{"id": "C27", "title": "Unsupported message types", "statement": "Encoding or IE-decoding a message type without definition returns -ENOTSUP; such a received message is never dispatched to the application nor answered.", "quantifier": "all 256 message types and all contents", "why_tests_cant": "all contents", "anchors": ["src/libosmo-pfcp/pfcp_msg.c:osmo_pfcp_msg_decode_tlv", "src/libosmo-pfcp/gen__pfcp_ies_auto.c", "src/libosmo-pfcp/pfcp_endpoint.c:osmo_pfcp_fd_cb"]}
{"id": "C28", "title": "Length field never wraps", "statement": "If osmo_pfcp_msg_encode() succeeds, the length field is the exact length; messages longer than 65535+4 octets yield -EMSGSIZE rather than a truncated length field.", "quantifier": "all messages and msgb sizes", "why_tests_cant": "large sizes", "anchors": ["src/libosmo-pfcp/pfcp_msg.c:pfcp_header_set_message_length,osmo_pfcp_msg_encode"]}
{"id": "C29", "title": "Failed encode leaves the bundle intact", "statement": "If osmo_pfcp_msg_encode() returns an error, the messages already in the msgb remain a valid bundle (nothing appended, Follow-On flag of the last message unchanged).", "quantifier": "all bundles and failing messages", "why_tests_cant": "all failing messages", "anchors": ["src/libosmo-pfcp/pfcp_msg.c:osmo_pfcp_msg_encode"]}
{"id": "C30", "title": "Sequence numbers", "statement": "osmo_pfcp_next_seq_nr() always yields a value in 1..2^24-1 and never repeats a value within any 2^24-1 consecutive calls, from any starting state.", "quantifier": "all uint32 states and call counts", "why_tests_cant": "period 2^24-1 over 2^32 states", "anchors": ["src/libosmo-pfcp/pfcp_msg.c:osmo_pfcp_next_seq_nr"]}
{"id": "C31", "title": "SEIDs", "statement": "osmo_pfcp_next_seid() never returns 0 and never repeats within any 2^64-1 consecutive calls, from any starting state.", "quantifier": "all uint64 states and call counts", "why_tests_cant": "2^64 period", "anchors": ["src/libosmo-pfcp/pfcp_msg.c:osmo_pfcp_next_seid"]}
{"id": "C32", "title": "Responses mirror the request", "statement": "osmo_pfcp_msg_alloc_tx_resp() yields a message addressed to the request's sender carrying the request's sequence number, and marked as response exactly for response types; the first three octets of the encoded sequence number equal those received.", "quantifier": "all received requests and response types", "why_tests_cant": "all sequence numbers and addresses", "anchors": ["src/libosmo-pfcp/pfcp_msg.c:osmo_pfcp_msg_alloc_tx_resp"]}
{"id": "C33", "title": "Request/response classification", "statement": "osmo_pfcp_msgtype_is_response() is true exactly for the response types: a supported request type t has a response type t+1, is never itself classified as a response, and every type that is not a defined response is treated as a request.", "quantifier": "all message types", "why_tests_cant": "whole domain claim", "anchors": ["src/libosmo-pfcp/pfcp_msg.c:osmo_pfcp_msgtype_is_response", "include/osmocom/pfcp/pfcp_proto.h:osmo_pfcp_message_type"]}
{"id": "C34", "title": "Cause and Node ID accessors", "statement": "osmo_pfcp_msg_cause()/osmo_pfcp_msg_node_id() are non-NULL exactly for the message types defined with that IE, and after a successful decode (or alloc) they refer to that IE of this message, which is then always present.", "quantifier": "all message types and contents", "why_tests_cant": "all contents", "anchors": ["src/libosmo-pfcp/pfcp_msg.c:osmo_pfcp_msg_set_memb_ofs", "include/osmocom/pfcp/pfcp_msg.h:osmo_pfcp_msg_cause"]}
{"id": "C35", "title": "IE codec round trips", "statement": "For each IE codec, decoding the encoded value returns the original for every in-range value.", "quantifier": "all in-range values of every IE", "why_tests_cant": "2^64-size value spaces", "anchors": ["src/libosmo-pfcp/pfcp_ies_custom.c"]}
{"id": "C36", "title": "IE decoders stay inside the IE", "statement": "No IE decoder reads outside the IE's value octets, and each returns an error when the value is too short for the parts its own flags announce.", "quantifier": "all byte strings per IE", "why_tests_cant": "all inputs", "anchors": ["src/libosmo-pfcp/pfcp_ies_custom.c"]}
{"id": "C37", "title": "IE decode is canonicalising", "statement": "For every IE codec except strings: if a value decodes successfully, re-encoding the decoded value succeeds and decodes again to the same value (spare bits and surplus octets are dropped once).", "quantifier": "all byte strings", "why_tests_cant": "all inputs", "anchors": ["src/libosmo-pfcp/pfcp_ies_custom.c"]}
{"id": "C38", "title": "Outer Header Creation consistency", "statement": "osmo_pfcp_enc_outer_header_creation() succeeds exactly when each of teid/v4/v6/port/C-TAG/S-TAG presence flags equals what the description bits announce, and the decoder sets the presence flags exactly from the description bits.", "quantifier": "all IE contents", "why_tests_cant": "2^10 flag combinations x contents", "anchors": ["src/libosmo-pfcp/pfcp_ies_custom.c:osmo_pfcp_dec_outer_header_creation,osmo_pfcp_enc_outer_header_creation"]}
{"id": "C39", "title": "F-SEID/F-TEID/UE IP flags", "statement": "The presence flags of decoded F-SEID, F-TEID and UE IP Address correspond exactly to the flag bits on the wire and decide which addresses are read, in v4-then-v6 order; an encoder refuses an address whose family contradicts its flag.", "quantifier": "all byte strings and values", "why_tests_cant": "all combinations", "anchors": ["src/libosmo-pfcp/pfcp_ies_custom.c:osmo_pfcp_dec_f_seid,osmo_pfcp_dec_f_teid,osmo_pfcp_dec_ue_ip_address"]}
{"id": "C40", "title": "Node ID encoding", "statement": "osmo_pfcp_enc_node_id() returns 0 only if the emitted octets are the node's address or name; inconsistent contents are rejected.", "quantifier": "all Node ID contents", "why_tests_cant": "all contents", "anchors": ["src/libosmo-pfcp/pfcp_ies_custom.c:osmo_pfcp_enc_node_id"]}
{"id": "C41", "title": "Domain name coding", "statement": "FQDN Node IDs and Network Instances are carried as length-prefixed labels: decode(encode(name)) = name for every name of non-empty labels of at most 63 octets and total length <= 252, and the decoder rejects any label that overruns the IE. A zero octet in the place of a label ends the name.", "quantifier": "all names", "why_tests_cant": "all strings", "anchors": ["src/libosmo-pfcp/pfcp_ies_custom.c:osmo_pfcp_dec_network_inst,osmo_pfcp_enc_network_inst,osmo_pfcp_dec_node_id"]}
{"id": "C42", "title": "Bit array accessors", "statement": "osmo_pfcp_bits_set(b,i,v) makes osmo_pfcp_bits_get(b,i)=v and changes no other bit; bit i is bit i%8 (LSB first) of octet i/8.", "quantifier": "all bit arrays, positions, values", "why_tests_cant": "all arrays", "anchors": ["src/libosmo-pfcp/pfcp_ies_custom.c:osmo_pfcp_bits_get,osmo_pfcp_bits_set"]}
{"id": "C43", "title": "F-SEID comparison", "statement": "osmo_pfcp_ie_f_seid_cmp() is 0 exactly when two F-SEIDs denote the same session endpoint and otherwise orders them consistently (antisymmetric, transitive).", "quantifier": "all triples of F-SEIDs", "why_tests_cant": "law over all triples", "anchors": ["src/libosmo-pfcp/pfcp_ies_custom.c:osmo_pfcp_ie_f_seid_cmp"]}
{"id": "C44", "title": "IP address set accessors", "statement": "osmo_pfcp_ip_addrs_set() stores the address with port 0 in the slot of its family without touching the other; osmo_pfcp_ip_addrs_get() returns exactly the present addresses; osmo_pfcp_ip_addrs_get_str() fills both outputs. get_str fails for a present address that is neither IPv4 nor IPv6. osmo_pfcp_ie_f_seid_set() gives the SEID and exactly that address.", "quantifier": "all addresses and prior contents", "why_tests_cant": "all states", "anchors": ["src/libosmo-pfcp/pfcp_msg.c:osmo_pfcp_ip_addrs_set,osmo_pfcp_ip_addrs_get,osmo_pfcp_ip_addrs_get_str", "src/libosmo-pfcp/pfcp_msg.c:osmo_pfcp_ie_f_seid_set"]}
{"id": "C45", "title": "Node ID from/to sockaddr", "statement": "Converting a socket address to a Node ID and back yields the same address, for any output argument.", "quantifier": "all addresses, all prior output contents", "why_tests_cant": "all prior contents", "anchors": ["src/libosmo-pfcp/pfcp_msg.c:osmo_pfcp_ie_node_id_from_osmo_sockaddr,osmo_pfcp_ie_node_id_to_osmo_sockaddr"]}
{"id": "C46", "title": "Bounded identical retransmission", "statement": "A request passed to osmo_pfcp_endpoint_tx() is handed to the socket at most 1+N1 times, always with the same octets and destination, and never again after its response was received or its failure was reported.", "quantifier": "all histories of API calls, receptions, timer expiries, send failures and re-entrant callbacks", "why_tests_cant": "all interleavings", "anchors": ["src/libosmo-pfcp/pfcp_endpoint.c:osmo_pfcp_endpoint_tx,pfcp_queue_retrans,pfcp_queue_sent_req_timer_cb"]}
{"id": "C47", "title": "Response callback exactly once", "statement": "For every request with a resp_cb passed to osmo_pfcp_endpoint_tx(), resp_cb is called at most once, and exactly once by the time the endpoint no longer waits for its response.", "quantifier": "all histories", "why_tests_cant": "all interleavings", "anchors": ["src/libosmo-pfcp/pfcp_endpoint.c:osmo_pfcp_endpoint_tx,osmo_pfcp_endpoint_handle_rx,osmo_pfcp_endpoint_close"]}
{"id": "C48", "title": "Response ends the request", "statement": "When a response with a pending request's sequence number arrives, that request's resp_cb gets the response, the request leaves the queue, and a second copy of the response finds no request.", "quantifier": "all histories", "why_tests_cant": "all interleavings", "anchors": ["src/libosmo-pfcp/pfcp_endpoint.c:osmo_pfcp_endpoint_handle_rx"]}
{"id": "C49", "title": "Responses are matched to their peer", "statement": "A response only completes a request that was sent to the peer from which the response arrives, and a cached response is only re-sent for a request from the peer it was sent to.", "quantifier": "all histories with any number of peers", "why_tests_cant": "cross-peer sequence-number collisions", "anchors": ["src/libosmo-pfcp/pfcp_endpoint.c:osmo_pfcp_queue_find"]}
{"id": "C50", "title": "Retransmitted requests are answered from cache", "statement": "While a response is kept, every further request with the same sequence number causes the identical response octets to be re-sent and is not dispatched to rx_msg_cb.", "quantifier": "all histories", "why_tests_cant": "all interleavings", "anchors": ["src/libosmo-pfcp/pfcp_endpoint.c:osmo_pfcp_endpoint_handle_rx"]}
{"id": "C51", "title": "Dispatch rule", "statement": "Each successfully decoded message that is not a duplicate of an already answered request is passed to rx_msg_cb exactly once, except responses whose request has a resp_cb returning something other than 1; req is the matching pending request or NULL.", "quantifier": "all histories", "why_tests_cant": "all interleavings", "anchors": ["src/libosmo-pfcp/pfcp_endpoint.c:osmo_pfcp_endpoint_handle_rx"]}
{"id": "C52", "title": "Heartbeats are always answered", "statement": "Every received Heartbeat Request is answered once with a Heartbeat Response to the sender with the same sequence number and the endpoint's recovery time stamp, independent of application behaviour.", "quantifier": "all histories", "why_tests_cant": "all interleavings", "anchors": ["src/libosmo-pfcp/pfcp_endpoint.c:osmo_pfcp_endpoint_handle_rx"]}
{"id": "C53", "title": "Queue discipline", "statement": "At all times the request queue holds only requests, the response queue only responses (so the timer assertions never fail), every queued entry has a running timer, osmo_pfcp_endpoint_retrans_queue_is_busy() is true iff something is queued, and osmo_pfcp_endpoint_close() empties both.", "quantifier": "all histories", "why_tests_cant": "all interleavings", "anchors": ["src/libosmo-pfcp/pfcp_endpoint.c:osmo_pfcp_endpoint_retrans_queue_add,osmo_pfcp_endpoint_close"]}
{"id": "C54", "title": "Pending sequence numbers are unique", "statement": "As long as fewer than 2^24-1 sequence numbers are drawn while a request is pending and the counter is not reset, all pending requests have distinct sequence numbers, so a response identifies its request.", "quantifier": "all histories", "why_tests_cant": "2^24 wrap-around", "anchors": ["src/libosmo-pfcp/pfcp_endpoint.c:osmo_pfcp_endpoint_tx", "src/libosmo-pfcp/pfcp_msg.c:osmo_pfcp_next_seq_nr"]}
{"id": "C55", "title": "Retransmission timing", "statement": "No retransmission or failure report happens before T1 has passed since the last transmission; an unanswered request is reported as failed (N1+1)*T1 after the first transmission if timers fire on time; a response is kept exactly KEEP_RESP.", "quantifier": "all histories and timer values", "why_tests_cant": "all schedules", "anchors": ["src/libosmo-pfcp/pfcp_endpoint.c:pfcp_queue_retrans,osmo_pfcp_endpoint_retrans_queue_add"]}
{"id": "C56", "title": "Recovery time stamp", "statement": "The recovery time stamp is fixed at endpoint creation as NTP seconds modulo 2^32, and every heartbeat and association message sent by the library carries this same value.", "quantifier": "all histories, all clock values", "why_tests_cant": "long-running histories", "anchors": ["src/libosmo-pfcp/pfcp_endpoint.c:osmo_pfcp_endpoint_create,osmo_pfcp_endpoint_tx_heartbeat_req"]}
{"id": "C57", "title": "Context invalidation", "statement": "After osmo_pfcp_endpoint_invalidate_ctx(ep, fi), no message queued in ep refers to fi or to a use count attached with it, and all other messages and attributes are unchanged.", "quantifier": "all queue contents", "why_tests_cant": "all queues", "anchors": ["src/libosmo-pfcp/pfcp_endpoint.c:osmo_pfcp_endpoint_invalidate_ctx", "src/libosmo-pfcp/pfcp_msg.c:osmo_pfcp_msg_invalidate_ctx"]}
{"id": "C58", "title": "Message ownership", "statement": "Every message passed to osmo_pfcp_endpoint_tx() is freed exactly once: on failure immediately, otherwise when it leaves the queue.", "quantifier": "all histories", "why_tests_cant": "leaks and double frees over all histories", "anchors": ["src/libosmo-pfcp/pfcp_endpoint.c:osmo_pfcp_endpoint_tx,osmo_pfcp_queue_del"]}
{"id": "C59", "title": "Local Node ID", "statement": "Every message with a Node ID IE transmitted via osmo_pfcp_endpoint_tx() carries the endpoint's configured local Node ID, whatever the caller put there; no other IE is changed.", "quantifier": "all messages and configurations", "why_tests_cant": "all contents", "anchors": ["src/libosmo-pfcp/pfcp_endpoint.c:osmo_pfcp_endpoint_tx"]}
{"id": "C60", "title": "Peer state machine legality", "statement": "The CP peer only ever takes transitions declared in its state table, and no event or callback ordering triggers an assertion.", "quantifier": "all histories", "why_tests_cant": "all interleavings", "anchors": ["src/libosmo-pfcp/pfcp_cp_peer.c:pfcp_cp_peer_fsm_states"]}
{"id": "C61", "title": "Association only on acceptance", "statement": "The peer is associated only if an Association Setup Response with Cause 'Request accepted' was received for its own request; assoc_cb(true) fires exactly when it becomes associated.", "quantifier": "all histories", "why_tests_cant": "all interleavings", "anchors": ["src/libosmo-pfcp/pfcp_cp_peer.c:on_pfcp_assoc_resp,pfcp_cp_peer_associated_onenter"]}
{"id": "C62", "title": "Single association attempt", "statement": "At most one Association Setup Request per peer is outstanding, and osmo_pfcp_cp_peer_associate() while busy or associated sends nothing.", "quantifier": "all histories", "why_tests_cant": "all interleavings", "anchors": ["src/libosmo-pfcp/pfcp_cp_peer.c:osmo_pfcp_cp_peer_associate"]}
{"id": "C63", "title": "Association is retried", "statement": "After osmo_pfcp_cp_peer_associate(), as long as it is not associated the peer either awaits a response to a pending request or has a retry timer running; it never gets stuck. The timer expires T26 after the attempt has failed, with the T26 in force at that time, and there is no other attempt before.", "quantifier": "all histories", "why_tests_cant": "liveness over all histories", "anchors": ["src/libosmo-pfcp/pfcp_cp_peer.c:pfcp_cp_peer_fsm_timer_cb,on_pfcp_assoc_resp", "src/libosmo-pfcp/pfcp_endpoint.c:osmo_pfcp_endpoint_close"]}
{"id": "C64", "title": "Association loss is reported", "statement": "assoc_cb(false) is called when the association is lost; true/false notifications alternate.", "quantifier": "all histories", "why_tests_cant": "all histories", "anchors": ["src/libosmo-pfcp/pfcp_cp_peer.c:pfcp_cp_peer_associated_onleave"]}
{"id": "C65", "title": "Peer use count balance", "statement": "At all times the peer's use count equals the number of live messages that carry the peer as context; each message takes the count at most once and releases it exactly once. After osmo_pfcp_endpoint_invalidate_ctx() the count exceeds that number by exactly the uses the invalidated messages carried.", "quantifier": "all histories", "why_tests_cant": "all interleavings", "anchors": ["src/libosmo-pfcp/pfcp_cp_peer.c:osmo_pfcp_cp_peer_set_msg_ctx", "src/libosmo-pfcp/pfcp_msg.c:osmo_pfcp_msg_destructor"]}
{"id": "C66", "title": "Message definitions", "statement": "For every message type, the coding table that osmo_pfcp_get_msg_coding() returns lists exactly the IEs, in the order, with the tags, presence (mandatory, optional, repeated with minimum and maximum) and nesting that the message layouts define; types without definition have none.", "quantifier": "all message types", "why_tests_cant": "whole-domain claim over all nested tables", "anchors": ["src/libosmo-pfcp/gen__pfcp_ies_auto.c", "src/libosmo-gtlv/gtlv_gen.c"]}
{"id": "C67", "title": "Decoded messages are well formed", "statement": "Whenever osmo_pfcp_msg_decode_tlv() succeeds, the struct it yields fits the layout of the message type: every mandatory IE is there, counts are within the minimum and maximum, and every value is of the right kind and in range.", "quantifier": "all datagrams and message types", "why_tests_cant": "every byte string is a possible input", "anchors": ["src/libosmo-pfcp/pfcp_msg.c:osmo_pfcp_msg_decode_tlv", "src/libosmo-gtlv/gtlv_dec_enc.c:osmo_gtlvs_decode"]}
{"id": "C68", "title": "Printing to a buffer", "statement": "Every *_to_str_buf() function (messages, log lines, structs, IE values, addresses, bit fields, tags) prints like snprintf(): for a buffer of any size it writes as much of the text as fits, NUL terminated, touches nothing else, and returns the length of the whole text; with NULL it returns the same length. The text names every IE that is present, in order, with all its values.", "quantifier": "all messages, IE values and buffer sizes", "why_tests_cant": "all contents and all truncation points", "anchors": ["src/libosmo-gtlv/gtlv_dec_enc.c:osmo_gtlvs_encode_to_str_buf", "src/libosmo-gtlv/gtlv.c:osmo_gtlv_tag_inst_to_str_buf", "src/libosmo-pfcp/pfcp_ies_custom.c:osmo_pfcp_enc_to_str_*", "src/libosmo-pfcp/pfcp_msg.c:osmo_pfcp_msg_to_str_buf,osmo_pfcp_msg_log_info_buf"]}
{"id": "C69", "title": "Printing to the heap", "statement": "Every *_to_str_c() function returns a NUL terminated string that holds the complete text, however long it is.", "quantifier": "all messages, IE values, initial buffer contents", "why_tests_cant": "all lengths and all previous memory contents", "anchors": ["src/libosmo-pfcp/pfcp_msg.c:osmo_pfcp_msg_to_str_c", "src/libosmo-gtlv/gtlv_dec_enc.c:osmo_gtlvs_encode_to_str_c", "src/libosmo-pfcp/pfcp_ies_custom.c:osmo_pfcp_bits_to_str_c"]}
{"id": "C70", "title": "Names are unambiguous", "statement": "Different message types, IE types, causes and interface numbers print different names, whether they are known or not; the text of a bit field tells for every known bit whether it is set.", "quantifier": "all pairs of numbers and of bit fields", "why_tests_cant": "whole-domain injectivity", "anchors": ["src/libosmo-pfcp/pfcp_strs.c", "src/libosmo-pfcp/pfcp_ies_custom.c:osmo_pfcp_bits_to_str_buf"]}
{"id": "C71", "title": "UE IP address flags in text", "statement": "The text of a UE IP Address IE tells which of its flags (CHV4, CHV6, destination) are set.", "quantifier": "all pairs of values", "why_tests_cant": "whole-domain injectivity", "anchors": ["src/libosmo-pfcp/pfcp_ies_custom.c:osmo_pfcp_enc_to_str_ue_ip_address"]}
{"id": "C72", "title": "The endpoint does not crash", "statement": "An endpoint never fails an assertion, accesses invalid memory or loops, whatever it is told to send, whatever it receives and whenever its timers fire, provided that: the application passes messages whose encoding is at most 2048 octets, closes the endpoint inside a callback only in rx_msg_cb() for a datagram that has no responses in it, and does not invalidate the FSM instance of a CP peer; received datagrams are shorter than 2048 octets, and the length field of each message in them covers at least the message's header. Each of these provisos is needed: without any one of them there is an execution that crashes.", "quantifier": "all sequences of API calls, received datagrams, timer expiries and callbacks", "why_tests_cant": "unbounded histories and arbitrary attacker-chosen datagrams", "anchors": ["src/libosmo-pfcp/pfcp_endpoint.c:osmo_pfcp_endpoint_read_cb", "src/libosmo-pfcp/pfcp_endpoint.c:osmo_pfcp_endpoint_tx", "src/libosmo-pfcp/pfcp_cp_peer.c", "src/libosmo-pfcp/pfcp_msg.c:osmo_pfcp_msg_decode_header"]}
{"id": "C73", "title": "Ordered decoding loses no IE", "statement": "If ordered decoding returns 0, every IE of the TLV structure whose tag the coding table defines is in the decoded struct, as for unordered decoding.", "quantifier": "all coding tables and TLV structures", "why_tests_cant": "all tables, arrangements and repetition counts", "anchors": ["src/libosmo-gtlv/gtlv_dec_enc.c:osmo_gtlvs_decode_ordered"]}
{"id": "C74", "title": "What is sent is the message", "statement": "Whatever message is passed to osmo_pfcp_endpoint_tx(), if its header and IEs are in range then each datagram sent for it, at first or as a retransmission, is the encoding of exactly that message (with the endpoint's Node ID and the drawn sequence number): no IE is lost, merged or malformed, however long the message is. The messages that can exceed the buffer of 2048 octets are the Session Establishment Request and the Session Modification Request and Response.", "quantifier": "all messages in range of every supported type, and all histories of the endpoint", "why_tests_cant": "all combinations of up to 192 grouped IEs per message; the failures lie in a window of four octets at the end of the buffer", "anchors": ["src/libosmo-pfcp/pfcp_endpoint.c:osmo_pfcp_endpoint_tx", "src/libosmo-pfcp/pfcp_msg.c:osmo_pfcp_msg_encode", "src/libosmo-gtlv/gtlv_dec_enc.c:osmo_gtlvs_encode"]}
{"id": "C75", "title": "IE decoders return what the octets mean", "statement": "For all octets of an IE and whatever follows it in memory, the IE decoder returns exactly the value TS 29.244 assigns to the octets by their positions (big endian numbers, flags selecting which fields are there, addresses with port 0, bit sets padded with zeros), and -EINVAL if there are fewer octets than the flags announce, if an IE of fixed length has another length, or if the type of a Node ID is unknown; octets behind a complete IE are ignored. (Names: C41; Activate Predefined Rules additionally needs a NUL in memory, C36.)", "quantifier": "all octet strings, all IE types, all memory behind the IE", "why_tests_cant": "all octet strings of all lengths and all combinations of flags", "anchors": ["src/libosmo-pfcp/pfcp_ies_custom.c:osmo_pfcp_dec_cause,osmo_pfcp_dec_f_teid,osmo_pfcp_dec_ue_ip_address,osmo_pfcp_dec_outer_header_creation"]}
{"id": "C76", "title": "A closed endpoint is silent", "statement": "Before the endpoint is bound, after osmo_pfcp_endpoint_close(), and after an osmo_pfcp_endpoint_bind() that failed (or was refused because there is no rx_msg_cb), until it is bound successfully: no octets are handed to a socket, nothing is received or dispatched, every osmo_pfcp_endpoint_tx() fails (its resp_cb is told, the message is freed), and nothing is queued. osmo_pfcp_endpoint_bind() discards and frees all that was queued.", "quantifier": "all endpoints, all histories of API calls, datagrams and timers without bind", "why_tests_cant": "all histories", "anchors": ["src/libosmo-pfcp/pfcp_endpoint.c:osmo_pfcp_endpoint_close,osmo_pfcp_endpoint_bind,osmo_pfcp_endpoint_tx"]}
{"id": "C77", "title": "Generated coding tables", "statement": "For every protocol definition (names of at most 127 characters): if gtlv_gen.c and the C compiler accept it, the generated table of each message is the one the definition stands for - the same IEs in the same order, each with its tag, member, presence flag, counts, instance, and its own functions or the table of its nested IEs - and PROTO_get_msg_coding() returns the table of the message type and NULL for others; every function referred to is declared once; the generator rejects exactly the definitions in which two different groups have the same name, and its arrays compile unless names of messages clash. For PFCP the result is exactly the tables that the codec theorems are about.", "quantifier": "all protocol definitions, any nesting, all message types", "why_tests_cant": "all definitions; sharing of groups between messages depends on the global list of seen names", "anchors": ["src/libosmo-gtlv/gtlv_gen.c:seen,write_nested_ies_array,write_ies_array,write_c", "src/libosmo-pfcp/gen__pfcp_ies_auto.c:pfcp_msg_defs"]}
{"id": "C78", "title": "Generated structs", "statement": "For every protocol definition that gtlv_gen.c and the C compiler accept: whatever the generated tables make the decoder write has a place in the generated structs - the member of each entry exists, is an array of exactly count_max elements with a count if the entry is repeated, has a presence flag if it is optional, and a group is of the type its nested table is for.", "quantifier": "all protocol definitions", "why_tests_cant": "all definitions", "anchors": ["src/libosmo-gtlv/gtlv_gen.c:write_ie_members,write_ie_auto_structs,write_msg_union,seen"]}
{"id": "C79", "title": "Meaning of received octets", "statement": "What is received is exactly what the octets mean by the standard: a message with a proper header decodes to the header fields at their positions and to the struct in which each member has the values of the IEs with its tag, in order of appearance, nested to any depth, IEs with unknown tags being ignored; if the octets have no such meaning, decoding fails. From a datagram the endpoint handles exactly the messages that it means, in order.", "quantifier": "all octet sequences with a proper header, all message types, all nestings, all reachable endpoint states", "why_tests_cant": "the space of octet sequences is unbounded, and a decoder can accept too much as well as too little", "anchors": ["src/libosmo-pfcp/pfcp_msg.c:osmo_pfcp_msg_decode_header,osmo_pfcp_msg_decode_tlv", "src/libosmo-gtlv/gtlv_dec_enc.c:osmo_gtlvs_decode", "src/libosmo-pfcp/pfcp_ies_custom.c", "src/libosmo-pfcp/pfcp_endpoint.c:osmo_pfcp_fd_cb"]}
{"id": "C80", "title": "Header conforms to TS 29.244", "statement": "The header of every message that is encoded is laid out as in 3GPP TS 29.244 7.2.2, including the message priority, and a header laid out like this is decoded to its values.", "quantifier": "all headers, all message types, all IEs", "why_tests_cant": "conformance is about all field values; a peer of another vendor is needed to notice", "anchors": ["src/libosmo-pfcp/pfcp_msg.c:struct osmo_pfcp_header_seid,osmo_pfcp_msg_enc_header"]}
{"id": "C81", "title": "Version and Follow On flag are respected", "statement": "A message whose version is not 1 is not handled like a message of version 1, and octets behind a message are taken for another one exactly if its Follow On flag is set.", "quantifier": "all datagrams, all reachable endpoint states", "why_tests_cant": "must hold for every datagram that arrives from the network", "anchors": ["src/libosmo-pfcp/pfcp_msg.c:osmo_pfcp_msg_decode_header", "src/libosmo-pfcp/pfcp_endpoint.c:osmo_pfcp_fd_cb"]}
{"id": "C82", "title": "Nothing is received that was not sent", "statement": "Let any number of endpoints exchange datagrams over a network that may lose, delay, reorder and duplicate them, but not change them or forge sender addresses. Whatever an endpoint reports as received from an address was sent to it by the endpoint there; and if the applications there use osmo_pfcp_endpoint_tx() with messages that the format can carry, header and IEs are exactly those that the application there passed (or the message is one of the library's own heartbeats).", "quantifier": "all networks, all histories of all endpoints, all messages", "why_tests_cant": "combines all interleavings of several endpoints with all messages", "anchors": ["src/libosmo-pfcp/pfcp_endpoint.c:osmo_pfcp_endpoint_tx,osmo_pfcp_fd_cb", "src/libosmo-pfcp/pfcp_msg.c:osmo_pfcp_msg_encode"]}
{"id": "C83", "title": "A response comes from the peer that was asked", "statement": "In such a network, as long as the applications answer only requests that they received, and an endpoint has not used a sequence number twice: when the resp_cb() of a request is called with a response (or rx_msg_cb() gets a response with the request that it answers), the endpoint to which the request was sent has received exactly this request, and its application (for heartbeats, the library) has answered it with exactly this response, of the matching type.", "quantifier": "all networks, all histories of all endpoints, all messages", "why_tests_cant": "agreement between two endpoints must hold for every schedule, loss, duplication and reordering", "anchors": ["src/libosmo-pfcp/pfcp_endpoint.c:osmo_pfcp_endpoint_handle_rx,osmo_pfcp_queue_find"]}
{"id": "C84", "title": "An association has two ends", "statement": "In such a network, under the same conditions: if a CP peer is associated, the endpoint at the peer's address has received an Association Setup Request from this endpoint, and its application has answered it with an Association Setup Response that accepts it.", "quantifier": "all networks, all histories of all endpoints", "why_tests_cant": "agreement between two endpoints must hold for every schedule, loss, duplication and reordering", "anchors": ["src/libosmo-pfcp/pfcp_cp_peer.c:on_pfcp_assoc_resp", "src/libosmo-pfcp/pfcp_endpoint.c:osmo_pfcp_endpoint_handle_rx"]}
{"id": "C85", "title": "One delivery is enough", "statement": "In such a network: if one datagram of a request (first or retransmitted) arrives at an open endpoint, rx_msg_cb() there gets the request once, unfalsified, or the response that is still kept is sent again; if one datagram of its response (first or repeated) arrives while the request is pending, resp_cb() is called once with this response, unfalsified, and the request is done.", "quantifier": "all networks, all histories of all endpoints, all messages", "why_tests_cant": "combines all reachable states of two endpoints with all messages", "anchors": ["src/libosmo-pfcp/pfcp_endpoint.c:osmo_pfcp_endpoint_handle_rx,osmo_pfcp_fd_cb"]}
{"id": "C86", "title": "A request is processed at most once", "statement": "In such a network, if timers are handled on time, a datagram arrives within D ms or never, the sender of requests sends each at most N + 1 times, v ms apart, and does not use a sequence number twice, and at the receiver responses are kept for more than N * v + D ms (with the default timers: D less than one second), the application answers requests at once and does not close the endpoint: then rx_msg_cb() of the receiver gets each request other than a Heartbeat Request at most once, whatever is lost, delayed, duplicated or reordered. That the application answers at once, that responses are kept for more than N * v + D ms and that the endpoint is not closed is needed: without any one of them a request may be processed twice.", "quantifier": "all networks, all timed histories of all endpoints, all patterns of loss, delay, duplication and reordering, all timer values", "why_tests_cant": "the schedule of retransmissions, expiry and arrival is unbounded, and the claim is about all of them", "anchors": ["src/libosmo-pfcp/pfcp_endpoint.c:osmo_pfcp_endpoint_handle_rx,pfcp_queue_timer_cb,osmo_pfcp_endpoint_tx,osmo_pfcp_tdefs"]}
{"id": "C87", "title": "A response in time is not lost", "statement": "If a request was sent at time t0 with N1 = n and T1 never less than v, and sendto() does not fail for it, then before t0 + (n + 1) * v the endpoint does not give the request up: it still waits for the response, or has delivered one, unless it was closed; failure is never reported earlier. So a response that arrives before that time is not lost: resp_cb() is called exactly once, with a response.", "quantifier": "all histories, with timers handled at any time after they expire; all networks of endpoints", "why_tests_cant": "the bound must hold for every interleaving of retransmissions, configuration changes, late timers and other messages", "anchors": ["src/libosmo-pfcp/pfcp_endpoint.c:pfcp_queue_sent_req_timer_cb,pfcp_queue_retrans,osmo_pfcp_endpoint_retrans_queue_add"]}
{"id": "C88", "title": "Decoding in memory", "statement": "Let every member of a coding table, with its presence flag, count and array of count_max elements, lie inside the struct at the offsets the table says, without overlap, at every level of nesting, and let the struct be zeroed and the memory smaller than 4 GiB. Then osmo_gtlvs_decode() writes only bytes of the struct; no assertion about offsets fails; it returns what C08-C18 say of it; and on success each flag says whether the IE is there, each count how often, and the value of the j-th IE with a tag is where the offset of the member and the distance between elements say, unharmed by the rest. Without these conditions this is false: the assertion of membof() only checks the first byte of a member.", "quantifier": "all tables of any depth, all layouts that fit, all memory contents around the struct, all inputs", "why_tests_cant": "all tables, all layouts and all inputs; a write to the padding or to a neighbouring object shows in no output", "anchors": ["src/libosmo-gtlv/gtlv_dec_enc.c:osmo_gtlvs_decode,osmo_gtlvs_decode_unordered,osmo_gtlvs_decode_ordered,membof", "include/osmocom/gtlv/gtlv_dec_enc.h:osmo_gtlv_coding"]}
{"id": "C89", "title": "Encoding from memory", "statement": "If a coding table fits its struct as in C88 and the memory contains a struct with certain values (flags, counts, members at their offsets; bytes between them may be anything), osmo_gtlvs_encode() depends on these values only: it does what C14-C18 say for them. What was encoded from one struct and is decoded to a zeroed other one is there then: the same flags, counts and values.", "quantifier": "all tables of any depth, all layouts that fit, all memory contents, all values", "why_tests_cant": "all tables, all layouts, all contents of padding and unused array elements", "anchors": ["src/libosmo-gtlv/gtlv_dec_enc.c:osmo_gtlvs_encode,osmo_gtlvs_decode,membof_const"]}
{"id": "C90", "title": "Generated tables fit generated structs in memory", "statement": "If gtlv_gen.c and the C compiler accept a protocol definition in which IEs of one type have the same nested IEs, and the functions for each IE are for the type of its member, then for every layout of structs that C allows, the offsets, pitches and counts in the table of each message describe members inside of the union of all messages, without overlap, at every level (C88). For libosmo-pfcp: whatever the message type and octets, osmo_pfcp_msg_decode_tlv() to a zeroed union returns as C22-C28 say, writes only the union, fails no assertion of membof(), and leaves there the decoded IEs with flags, counts and values at the offsets of the members; encoding from the union depends on nothing else.", "quantifier": "all protocol definitions, all layouts that C allows; for PFCP all message types and octets", "why_tests_cant": "tests run with one compiler, one layout and some messages; here all layouts, definitions and inputs are covered", "anchors": ["src/libosmo-gtlv/gtlv_gen.c:write_ies_array,write_ie_members,write_ie_auto_structs,write_c", "src/libosmo-pfcp/gen__pfcp_ies_auto.c", "src/libosmo-pfcp/pfcp_ies_custom.c", "src/libosmo-pfcp/pfcp_msg.c:osmo_pfcp_msg_decode_tlv,osmo_pfcp_msg_encode_tlv"]}
{"id": "C91", "title": "Freeing an endpoint", "statement": "osmo_pfcp_endpoint_free(), outside of callbacks, always returns and sets the pointer to NULL; it frees each message that the endpoint waited for a response to or kept, exactly once, sends nothing and calls nothing. From then on, whatever datagrams arrive and timers expire, nothing is sent or freed, no callback of the application is called and no CP peer changes its state; a second call does nothing. What the application itself does then crashes exactly if it uses the endpoint, directly or by having a CP peer associate that is not associated or associating. If the application does not use the endpoint anymore, this never crashes exactly if no CP peer was waiting to retry its association when the endpoint was freed: the retry timer of a CP peer accesses the freed endpoint.", "quantifier": "all histories before and after", "why_tests_cant": "all histories, all points at which the endpoint is freed, all timers that may still be running", "anchors": ["src/libosmo-pfcp/pfcp_endpoint.c:osmo_pfcp_endpoint_free,osmo_pfcp_endpoint_close,osmo_pfcp_queue_destructor", "src/libosmo-pfcp/pfcp_cp_peer.c:pfcp_cp_peer_fsm_timer_cb,pfcp_cp_peer_wait_assoc_setup_resp_onenter"]}
{"id": "C92", "title": "Printing from memory", "statement": "If a coding table fits its struct, osmo_gtlvs_encode_to_str_buf() prints exactly the values that the struct in memory contains, with flags, counts and array elements at the offsets that the table says: same text, same return code, same use of the buffer as printing the members one by one. Whatever the contents, no assertion fails and nothing outside of the struct is read; a mandatory member that was never set prints (and encodes) as the value that zero bytes are. For libosmo-pfcp, with every layout of the generated structs that C allows: every received message, every freshly allocated message and every message whose members have values of their types prints the text of these values.", "quantifier": "all tables and layouts, all contents of memory, all buffers", "why_tests_cant": "all contents, all layouts, all buffer sizes", "anchors": ["src/libosmo-gtlv/gtlv_dec_enc.c:osmo_gtlvs_encode_to_str_buf,membof_const", "src/libosmo-gtlv/gtlv_gen.c:write_ies_array,write_c", "src/libosmo-pfcp/pfcp_msg.c:osmo_pfcp_msg_to_str_buf"]}
{"id": "C93", "title": "F-SEID comparison, exactly", "statement": "For all F-SEIDs whose addresses are of their families: osmo_pfcp_ie_f_seid_cmp() of two objects returns 0 exactly if the SEIDs are equal, the F-SEIDs have an address family in common, and in the first such family (IPv4 before IPv6) the same address and port. Exchanging the arguments changes the sign exactly if one of them has an IPv4 address or both have an IPv6 address. Among F-SEIDs with exactly one address, as osmo_pfcp_ie_f_seid_set() makes them, it is a total order: IPv4 before IPv6, then by address, port and SEID. (What remains true of C43 for all F-SEIDs.)", "quantifier": "all pairs of F-SEIDs", "why_tests_cant": "all addresses, ports, SEIDs and combinations of presence flags", "anchors": ["src/libosmo-pfcp/pfcp_ies_custom.c:osmo_pfcp_ie_f_seid_cmp,osmo_pfcp_ie_f_seid_set"]}
{"id": "C94", "title": "Which IE values survive", "statement": "An IE value of any kind survives encoding and decoding (its encoder succeeds, and the decoder returns the same value) exactly if it is in the range of the format: numbers as wide as their fields, addresses of their families and without port, absent parts blank, Outer Header Creation parts as announced by its description, bit fields of their size; and for names: at most 253 octets, no NUL, no empty label but for the last one. So every value that does not fit the format is either refused or changed, and no other value is.", "quantifier": "all IE values of all 19 kinds", "why_tests_cant": "all values, both directions of the equivalence", "anchors": ["src/libosmo-pfcp/pfcp_ies_custom.c:osmo_pfcp_enc_*,osmo_pfcp_dec_*"]}
{"id": "C95", "title": "Closing an endpoint inside a callback", "statement": "osmo_pfcp_endpoint_close() (and so osmo_pfcp_endpoint_bind()) inside a callback for a message that the endpoint keeps always crashes: in set_msg_ctx_cb(), resp_cb() or rx_msg_cb() for the response to a pending request, in the assoc_cb() of a CP peer, in resp_cb() of a request that is given up, and in set_msg_ctx_cb() for a request that was answered before. In set_msg_ctx_cb() and rx_msg_cb() for any other message it does not: for a request that was not answered before, or a response to no pending request.", "quantifier": "all reachable states, all received messages, all programs that the application runs in its callbacks", "why_tests_cant": "all histories and all re-entrant applications", "anchors": ["src/libosmo-pfcp/pfcp_endpoint.c:osmo_pfcp_endpoint_close,osmo_pfcp_endpoint_handle_rx,pfcp_queue_sent_req_timer_cb,osmo_pfcp_queue_del"]}
{"id": "C96", "title": "Freeing an endpoint inside rx_msg_cb()", "statement": "If rx_msg_cb() calls osmo_pfcp_endpoint_free() for a request that was not answered before or for a response to no pending request, that returns, the pointer is NULL, no message is kept or waited for and the socket is closed; and the library does not crash exactly if no further message in the same datagram can be decoded: it uses the freed endpoint for each one that can. For the response to a pending request it always crashes.", "quantifier": "all histories, all datagrams, all programs before and after the call", "why_tests_cant": "all histories, all contents of the rest of the datagram", "anchors": ["src/libosmo-pfcp/pfcp_endpoint.c:osmo_pfcp_endpoint_free,osmo_pfcp_endpoint_handle_rx,osmo_pfcp_fd_cb"]}
{"id": "C97", "title": "A request that arrives is answered", "statement": "In such a network: each time that a datagram of a request other than a Heartbeat Request (first or retransmitted) arrives at an open endpoint whose application answers requests at once, while sendto() does not fail and no other endpoint has used the sequence number of the request there, this endpoint sends back a response to this very request: the one passed now, or the one passed for an earlier copy. If one copy of that datagram arrives at the sender of the request less than (N1 + 1) * T1 after the request was sent first, resp_cb() is called exactly once, with a response of the endpoint that was asked. Without the condition about sequence numbers this is false, already with default timers and with no datagram lost: the first request of every endpoint has number 1, and if two of them send one to the same endpoint within a second, the second is never answered.", "quantifier": "all histories of networks of any number of endpoints, with all applications that answer at once, all losses, delays, reorderings and duplications", "why_tests_cant": "all schedules and interleavings of any number of endpoints", "anchors": ["src/libosmo-pfcp/pfcp_endpoint.c:osmo_pfcp_endpoint_handle_rx,osmo_pfcp_endpoint_tx,osmo_pfcp_queue_find,osmo_pfcp_queue_timer_cb,osmo_pfcp_next_seq_nr"]}
{"id": "C98", "title": "The generated files are C code with exactly these declarations", "statement": "For every protocol definition whose names are words and whose types are type names in C: run with the argument \"h\", the generator prints a file that a C compiler reads as the structs of the messages and nested IEs (each optional member preceded by its presence flag, each array followed by its count), the union of all messages, and the declarations of the four functions, and nothing else; run with \"c\", a file that is read as the declarations of the functions of each IE (one each), one array of codings per nested IE and per message with all members of each element set as defined and ending in {}, msg_defs, and the four functions; it returns 0. With any other argument or none it prints nothing and returns 1. For PFCP these are the coding tables and structs that libosmo-pfcp decodes and encodes with. A spec_ref without spec_ref_prefix is outside of this: printf() is given NULL.", "quantifier": "all protocol definitions (any number of messages and IEs, any nesting), all configurations of the generator, all arguments", "why_tests_cant": "infinitely many protocol definitions; a test compiles the output for one or two", "anchors": ["src/libosmo-gtlv/gtlv_gen.c:write_ie_members,write_ie_auto_structs,write_auto_structs,write_msg_union,write_h,write_extern_dec_enc,write_ies_array,write_nested_ies_array,write_c,osmo_gtlv_gen_main", "src/libosmo-pfcp/gen__pfcp_ies_auto.c"]}
{"id": "C99", "title": "What encoding does with too little room", "statement": "For every message whose header and IEs are in range and every size of the buffer, encoding has exactly one outcome that depends on the room left only: IEs are written in the order of the layout; where there is no room for tag and length, these are left out and the value becomes part of the IE before; a value that does not fit aborts the program, but a name (Network Instance, FQDN Node ID) that does not fit makes encoding return -EINVAL. The octets are those of the message if and only if it fits; otherwise, if encoding succeeds at all, they are shorter and leave at most three octets of room. The same holds for a message that is appended to a bundle. osmo_pfcp_endpoint_tx(), whose buffer has 2048 octets, sends what was written, aborts, or frees the message and returns -EINVAL, accordingly.", "quantifier": "all messages with header and IEs in range, all buffer sizes, all bundles before it, all endpoint histories", "why_tests_cant": "which of the outcomes occurs changes from one octet of a name to the next, for unboundedly many messages and buffer sizes", "anchors": ["src/libosmo-gtlv/gtlv_dec_enc.c:osmo_gtlvs_encode", "src/libosmo-gtlv/gtlv.c:osmo_gtlv_put_tli,osmo_gtlv_put_update_tl", "src/libosmo-pfcp/pfcp_ies_custom.c:osmo_pfcp_enc_*", "src/libosmo-pfcp/pfcp_msg.c:osmo_pfcp_msg_encode", "src/libosmo-pfcp/pfcp_endpoint.c:osmo_pfcp_endpoint_tx"]}
{"id": "C100", "title": "Decoding errors of PFCP messages are reported exactly", "statement": "For every message with a proper header, decoding its IEs reports nothing through the error callback if it succeeds. It fails with an error code and a sequence of reports if and only if these describe the first thing that is wrong: octets that are no IE, an IE too often, a value without meaning (with its length and first octets), something inside a grouped IE (first what, then in which IE, one report per level), or, at the end, the first mandatory IE that is missing or too few. Every report has the tag where it is and the returned error code; there is at least one for every message of a known type; messages of unknown type return -ENOTSUP without a report. Reporting does not change what is returned.", "quantifier": "all received messages with a proper header, of every type", "why_tests_cant": "the octets of a message, and thus the place of the first error, are unbounded", "anchors": ["src/libosmo-gtlv/gtlv_dec_enc.c:RETURN_ERROR,osmo_gtlvs_decode_unordered", "src/libosmo-pfcp/pfcp_msg.c:osmo_pfcp_msg_decode_tlv,osmo_pfcp_msg_err_cb"]}
{"id": "C101", "title": "libosmo-gtlv reports every decoding error", "statement": "For every coding table, with any nesting, and every input, osmo_gtlvs_decode() calls err_cb if and only if it fails; the last call has the error code that is returned and, in ordered decoding, the tag of a table entry.", "quantifier": "all coding tables, all inputs, ordered and unordered", "why_tests_cant": "inputs and tables are unbounded; the one failure that is not reported needs a repeated IE followed by a truncated one of the same tag", "anchors": ["src/libosmo-gtlv/gtlv_dec_enc.c:osmo_gtlvs_decode,osmo_gtlvs_decode_ordered,osmo_gtlvs_decode_unordered,RETURN_ERROR"]}
{"id": "C102", "title": "Encoding errors of PFCP messages are reported", "statement": "For every message type, every decoded struct and every buffer, encoding the IEs reports nothing if it succeeds. If it fails, the reports name the IE that is not encoded - a repeated IE with too many values (-ENOTSUP), or a value that an encoder may refuse (-EINVAL): a name, an unknown kind of Node ID, an address of the wrong family, an Outer Header Creation with other parts than it says - and then each IE in which it is nested; each report has the returned error code. Message types without IEs defined return -ENOTSUP without a report.", "quantifier": "all message types, all structs, all buffers", "why_tests_cant": "structs and buffers are unbounded", "anchors": ["src/libosmo-gtlv/gtlv_dec_enc.c:osmo_gtlvs_encode", "src/libosmo-pfcp/pfcp_ies_custom.c:osmo_pfcp_enc_*", "src/libosmo-pfcp/pfcp_msg.c:osmo_pfcp_msg_encode_tlv"]}
{"id": "C103", "title": "A CP peer gets associated", "statement": "A CP peer sends its Association Setup Request to the peer endpoint. If any one of the datagrams of it (the first or a retransmission) arrives there, the application there answers at once, no other endpoint uses this sequence number there and sendto() does not fail, then the peer endpoint sends a datagram such that, whatever happens in the network meanwhile (loss, duplication, reordering, traffic of other endpoints), if one copy of this datagram arrives before the last retransmission timer has expired and the answer has Cause \"Request accepted\", the CP peer is associated. A CP peer whose peer endpoint never accepts is not associated.", "quantifier": "all networks of endpoints, all histories, every copy of the request, everything that happens between the answer and its arrival", "why_tests_cant": "the histories of a network are unbounded: the request may have been retransmitted, duplicated, answered before", "anchors": ["src/libosmo-pfcp/pfcp_cp_peer.c:osmo_pfcp_cp_peer_associate,on_pfcp_assoc_resp", "src/libosmo-pfcp/pfcp_endpoint.c:osmo_pfcp_endpoint_tx,osmo_pfcp_endpoint_handle_rx", "include/osmocom/pfcp/pfcp_cp_peer.h:osmo_pfcp_cp_peer_is_associated"]}
{"id": "C104", "title": "Ordered decoding, exactly", "statement": "For every IE coding table (also with several entries for the same tag, and with nested tables) and all octets, ordered decoding returns exactly what follows from reading the IEs against the table entry by entry: for each entry, IEs are skipped up to the next with its tag; it takes this one, and if it is a repeated IE, all that directly follow with the same tag; those it has no room for go on to the next entry for the tag, or are refused with -ENOTSUP; a missing mandatory IE is -ENOENT, octets that are no IE are -EBADMSG. The decoded struct, the error code and the calls of err_cb() are determined by this. Octets and IEs left when the table ends are ignored.", "quantifier": "all coding tables of decoders that look at their IE only, all octets, both TLV formats", "why_tests_cant": "unbounded tables, unbounded input", "anchors": ["src/libosmo-gtlv/gtlv_dec_enc.c:osmo_gtlvs_decode_ordered", "include/osmocom/gtlv/gtlv_dec_enc.h:osmo_gtlvs_decode"]}
{"id": "C105", "title": "Unordered decoding, exactly", "statement": "For every IE coding table of up to 4096 entries (also with several entries for the same tag, and with nested tables) and all octets, unordered decoding returns exactly this: the n-th IE with a tag goes to the first entry for the tag that is not yet filled by the earlier ones; one for which no entry has room is refused with -ENOTSUP and the total number allowed; unknown IEs are ignored; octets at the end that are no IE are -EBADMSG; then the first entry that has fewer values than it must have is -EINVAL. The decoded struct, the error code and the calls of err_cb() are determined by this.", "quantifier": "all coding tables of decoders that look at their IE only, all octets, both TLV formats", "why_tests_cant": "unbounded tables, unbounded input", "anchors": ["src/libosmo-gtlv/gtlv_dec_enc.c:osmo_gtlvs_decode_unordered", "include/osmocom/gtlv/gtlv_dec_enc.h:osmo_gtlvs_decode"]}
{"id": "C106", "title": "Encoding, exactly", "statement": "For every IE coding table (with any nesting), every struct (with values in or out of range, and any counts of repeated members) and every msgb with any contents and any room, osmo_gtlvs_encode() has exactly this effect: the values are written in table order behind what is in the msgb, each with its tag and its length; a tag and length for which there is no room, or a tag that is too large, are left out, and the value is then counted as part of the IE before; a length too large for its field is left as it was; a value the array has no room for is -ENOTSUP; the first encoder that fails ends it with its error code. Return code, octets (also those left behind by a failure) and calls of err_cb() are determined by this; nothing in front is touched and nothing is written beyond the room.", "quantifier": "all coding tables of encoders that only append, all structs, all buffers, both TLV formats; all PFCP messages", "why_tests_cant": "unbounded tables, structs and buffer sizes", "anchors": ["src/libosmo-gtlv/gtlv_dec_enc.c:osmo_gtlvs_encode", "src/libosmo-gtlv/gtlv.c:osmo_gtlv_put_tli", "src/libosmo-gtlv/gtlv.c:osmo_gtlv_put_update_tl", "src/libosmo-pfcp/pfcp_msg.c:osmo_pfcp_msg_encode_tlv"]}
{"id": "C107", "title": "Which messages survive", "statement": "For every supported message type, every header and every struct of IEs (whatever its values are, at any depth of grouped IEs), provided that the message fits its length field and the msgb: osmo_pfcp_msg_encode() succeeds and decoding the msgb again gives the same header and the same IEs if and only if the header is one that the format can carry (version of 3 bits, sequence number of 24 bits, priority of 4 bits and only with SEID, absent parts 0), the numbers of IEs fit the layout, and each value is in range: addresses of the family announced and without a port, names of at most 253 characters without NUL and without empty label but for the last one, and so on.", "quantifier": "all message types, headers, structs of IEs and buffers with room", "why_tests_cant": "all values of all IEs at all depths, in range or not; the negative direction is about every struct that is not in the domain", "anchors": ["src/libosmo-pfcp/pfcp_msg.c:osmo_pfcp_msg_encode", "src/libosmo-pfcp/pfcp_msg.c:osmo_pfcp_msg_decode_header", "src/libosmo-pfcp/pfcp_msg.c:osmo_pfcp_msg_decode_tlv", "src/libosmo-pfcp/pfcp_ies_custom.c", "include/osmocom/pfcp/pfcp_ies_auto.h"]}
{"id": "C108", "title": "What the endpoint looks at", "statement": "What the endpoint does upon a received message - transmissions, calls of callbacks, queues, timers, sequence numbers, CP peers, use counts - depends on nothing of the message but: whether it is a request or a response, its sequence number, whether it is a Heartbeat Request, and whether its Cause is 'Request accepted'. The address that it comes from makes no difference at all, but that Heartbeat Responses are sent there. So a message that is not from the peer, or of another type than expected, has the same effect as the expected one.", "quantifier": "all pairs of messages that agree in these, all endpoint states, all reactions of the application; all histories that differ in the source addresses only", "why_tests_cant": "it compares all pairs of messages and of histories, at all states", "anchors": ["src/libosmo-pfcp/pfcp_endpoint.c:osmo_pfcp_endpoint_handle_rx", "src/libosmo-pfcp/pfcp_endpoint.c:osmo_pfcp_queue_find", "src/libosmo-pfcp/pfcp_endpoint.c:osmo_pfcp_fd_cb", "src/libosmo-pfcp/pfcp_cp_peer.c:on_pfcp_assoc_resp"]}
{"id": "C109", "title": "What moves a CP peer", "statement": "A CP peer becomes associated only at the moment when resp_cb() is called for an Association Setup Request that this very CP peer has sent, with a response of its sequence number and the Cause 'Request accepted'; it begins to wait for a retry only at the moment when resp_cb() is called for such a request without a response or with another response; an Association Setup Request is passed on only at the moment when the CP peer begins to associate, and this it does only when the application calls osmo_pfcp_cp_peer_associate() for it or its own timer expires. Whatever happens elsewhere - other CP peers, other requests, received messages, other timers - leaves its state as it is.", "quantifier": "all histories, any number of CP peers on an endpoint, all events, all reactions of the application", "why_tests_cant": "it excludes every other cause, in all histories with any number of CP peers", "anchors": ["src/libosmo-pfcp/pfcp_cp_peer.c:on_pfcp_assoc_resp", "src/libosmo-pfcp/pfcp_cp_peer.c:pfcp_cp_peer_wait_assoc_setup_resp_onenter", "src/libosmo-pfcp/pfcp_cp_peer.c:osmo_pfcp_cp_peer_associate", "src/libosmo-pfcp/pfcp_cp_peer.c:pfcp_cp_peer_fsm_timer_cb"]}
{"id": "C110", "title": "IEs in TL formats of the user", "statement": "For a user-defined struct osmo_gtlv_cfg whose store_tl() and load_tl() are inverse to each other (with TLs of any sizes, with or without instances): any sequence of IEs that the format can express is written by osmo_gtlv_put_tli(), msgb_put(), osmo_gtlv_put_update_tl() as TL, value, TL, value, ...; reading those octets back with osmo_gtlv_load_next() gives the same tags, instances and values in the same order and then the end, whatever follows in memory; osmo_gtlv_load_next_by_tag_inst() finds the first IE with the given tag and instance, or returns -ENOENT and leaves the loader as it was. This needs TLs whose size does not depend on the length; otherwise the length must be known in advance.", "quantifier": "all formats, all lists of IEs, all buffers, all octets behind the window", "why_tests_cant": "it ranges over all user-defined formats and all sequences of IEs", "anchors": ["include/osmocom/gtlv/gtlv.h:struct osmo_gtlv_cfg", "src/libosmo-gtlv/gtlv.c:osmo_gtlv_load_next", "src/libosmo-gtlv/gtlv.c:osmo_gtlv_load_next_by_tag_inst", "src/libosmo-gtlv/gtlv.c:osmo_gtlv_put_tli", "src/libosmo-gtlv/gtlv.c:osmo_gtlv_put_update_tl"]}
{"id": "C111", "title": "Reading in bounds, for any TL format", "statement": "Whatever tag, instance and length (up to the range of size_t, as gtlv.h allows) a user-defined load_tl() returns, an IE that osmo_gtlv_load_next() returns lies inside the window, behind its TL, which starts where the previous IE ended; and if no TL is empty, reading a window ends.", "quantifier": "all formats, all windows at all addresses of a 64 bit machine, all states of the loader", "why_tests_cant": "lengths near SIZE_MAX, and all formats, cannot be enumerated", "anchors": ["src/libosmo-gtlv/gtlv.c:next_tl_valid", "src/libosmo-gtlv/gtlv.c:osmo_gtlv_load_next", "include/osmocom/gtlv/gtlv.h:struct osmo_gtlv_cfg", "tests/libosmo-gtlv/test_tliv/tliv_test.c:tliv_load_tl"]}
{"id": "C112", "title": "Structs in TL formats of the user", "statement": "A struct that obeys a coding table without repeated (tag, instance), whose values have matching encoders and decoders, is encoded by osmo_gtlvs_encode() in a user-defined TL format to octets from which osmo_gtlvs_decode(), ordered or unordered, makes the same struct, at any depth of nesting. What decoding makes of given IEs, or which error it reports, does not depend on the TL format that carries them.", "quantifier": "all formats whose TL sizes do not depend on the length, all coding tables, all structs, all lists of IEs", "why_tests_cant": "it ranges over all formats, tables and structs", "anchors": ["src/libosmo-gtlv/gtlv_dec_enc.c:osmo_gtlvs_decode", "src/libosmo-gtlv/gtlv_dec_enc.c:osmo_gtlvs_encode", "include/osmocom/gtlv/gtlv.h:struct osmo_gtlv_cfg"]}
{"id": "C113", "title": "TL formats whose store_tl() moves data", "statement": "For a user-defined struct osmo_gtlv_cfg whose store_tl(), when called by osmo_gtlv_put_update_tl(), moves the value in the msgb so that a TL of another size fits (gtlv.h:78-96): IEs written in pieces with an update after each piece become exactly TL and value of the final length; what is written is read back by osmo_gtlv_load_next() unchanged; structs encoded by osmo_gtlvs_encode() decode to the same struct, at any depth of nesting. With a store_tl() that moves nothing, the library behaves as with any other format.", "quantifier": "all such formats, all IEs and ways to write them in pieces, all tables and structs, all depths", "why_tests_cant": "it ranges over all formats, sizes and structs; the test suite has no such format", "anchors": ["include/osmocom/gtlv/gtlv.h:struct osmo_gtlv_cfg", "src/libosmo-gtlv/gtlv.c:osmo_gtlv_put_update_tl", "src/libosmo-gtlv/gtlv_dec_enc.c:osmo_gtlvs_encode"]}
{"id": "C114", "title": "An endpoint comes to rest", "statement": "If the timers of an endpoint's queues are handled when they expire: no request is waited for longer than (N1 + 1) * T1 after it was sent first, no response is kept longer than KEEP_RESP; the queues are never longer than the number of messages passed to osmo_pfcp_endpoint_tx() and sent in that time; and if nothing is sent or received any more, then after that time osmo_pfcp_endpoint_retrans_queue_is_busy() returns false. Handling expired timers never takes forever: any later time can be reached.", "quantifier": "all histories in which the timers are handled on time (for the last part: that observe the rules of C72), all configurations, also changing ones", "why_tests_cant": "the bounds must hold for all numbers of messages, all interleavings of sending, receiving and timers, and all configurations", "anchors": ["src/libosmo-pfcp/pfcp_endpoint.c:pfcp_queue_retrans", "src/libosmo-pfcp/pfcp_endpoint.c:pfcp_queue_sent_req_timer_cb", "src/libosmo-pfcp/pfcp_endpoint.c:pfcp_queue_sent_resp_timer_cb", "src/libosmo-pfcp/pfcp_endpoint.c:osmo_pfcp_endpoint_retrans_queue_is_busy"]}
{"id": "C115", "title": "A loader, whatever it is asked in whatever order", "statement": "A loader for a window that holds IEs of a TL format (the library's or a user's, C110) answers every sequence of osmo_gtlv_load_next(), osmo_gtlv_load_peek_tag(), osmo_gtlv_load_next_by_tag_inst() and osmo_gtlv_load_start() like a reader of the list of these IEs: next returns them one by one, then the end once, and then begins again with the first; peek returns the tag of what next would return, or -ENOENT, and changes nothing; a search returns the first IE of that tag and instance that is still to come and continues behind it, or -ENOENT and changes nothing; start begins again. Once next has returned an error all calls return errors until start: nothing behind an IE that is not valid is ever returned. After start a loader answers like a new one, whatever happened before.", "quantifier": "all TL formats that keep the contract of load_tl(), all lists of IEs, all memory behind the window, all sequences of calls of any length", "why_tests_cant": "the number of call sequences is unbounded", "anchors": ["src/libosmo-gtlv/gtlv.c:osmo_gtlv_load_next", "src/libosmo-gtlv/gtlv.c:osmo_gtlv_load_peek_tag", "src/libosmo-gtlv/gtlv.c:osmo_gtlv_load_next_by_tag_inst", "include/osmocom/gtlv/gtlv.h:osmo_gtlv_load_start"]}
{"id": "C116", "title": "What a CP peer sends", "statement": "In every history, each datagram sent for an Association Setup Request of a CP peer - the first one and every retransmission - goes to the CP peer's address and is exactly the octets of an Association Setup Request with the endpoint's Node ID, its Recovery Time Stamp and CP Function Features with BUNDL, and nothing else. Only such messages have their response handled by a CP peer. In a network (under the conditions of C84) the endpoint at the address of an associated CP peer has received exactly this header and these IEs, and has accepted that message.", "quantifier": "all histories of an endpoint and of a network of endpoints, all Node IDs in range, all CP peers", "why_tests_cant": "the histories, and the Node IDs, are unbounded in number", "anchors": ["src/libosmo-pfcp/pfcp_cp_peer.c:osmo_pfcp_cp_peer_associate", "src/libosmo-pfcp/pfcp_cp_peer.c:pfcp_cp_peer_wait_assoc_setup_resp_onenter", "src/libosmo-pfcp/pfcp_cp_peer.c:osmo_pfcp_cp_peer_new_req", "src/libosmo-pfcp/pfcp_endpoint.c:osmo_pfcp_endpoint_tx"]}
{"id": "C117", "title": "The trace of reception; an endpoint does not amplify", "statement": "In every history, what happens because messages are received is a sequence of blocks, one for each received message, in the order of reception and never interleaved: the reception; one Heartbeat Response to its sender, with its sequence number and the endpoint's recovery time stamp, only if it is a Heartbeat Request; set_msg_ctx_cb() if there is one; and then exactly one of: rx_msg_cb(); (a request) an earlier response with this sequence number, again, to where and as it was sent before; (a response) resp_cb() and/or rx_msg_cb() with the request that has this sequence number. Hence the number of datagrams that an endpoint sends is at most 1 + N1 for each request and one for each response that was passed to osmo_pfcp_endpoint_tx(), plus those sent directly, plus one for each Heartbeat Request received, plus one for each request received.", "quantifier": "all histories of an endpoint, all applications (also re-entrant ones), all datagrams received", "why_tests_cant": "the traces are of unbounded length, and the callbacks may do anything", "anchors": ["src/libosmo-pfcp/pfcp_endpoint.c:osmo_pfcp_endpoint_handle_rx", "src/libosmo-pfcp/pfcp_endpoint.c:osmo_pfcp_queue_find", "src/libosmo-pfcp/pfcp_endpoint.c:osmo_pfcp_endpoint_tx_data", "src/libosmo-pfcp/pfcp_endpoint.c:pfcp_queue_retrans"]}
{"id": "C118", "title": "Endpoints do not keep each other busy", "statement": "In a network of endpoints with proper applications, in any reached state: if from now on the applications send nothing (their callbacks may do anything else), then whatever datagrams are delivered, in any order and any number of times, all that endpoints send because of it are responses (by the message type octet); a delivered response causes nothing to be sent; any other delivered datagram of one message causes at most two (an automatic Heartbeat Response, and a response that was sent before). So the deliveries of n datagrams that are not responses, and of what they cause, produce at most 2 n datagrams: there are no loops of messages.", "quantifier": "all reached states of all networks of endpoints, all orders and repetitions of deliveries, all silent behaviours of callbacks", "why_tests_cant": "it is about all sequences of deliveries, of any length, in all reachable states", "anchors": ["src/libosmo-pfcp/pfcp_endpoint.c:osmo_pfcp_endpoint_handle_rx", "src/libosmo-pfcp/pfcp_endpoint.c:osmo_pfcp_queue_find", "src/libosmo-pfcp/pfcp_endpoint.c:osmo_pfcp_fd_cb", "src/libosmo-pfcp/pfcp_msg.c:osmo_pfcp_msg_decode_header"]}
{"id": "C119", "title": "What a datagram can change", "statement": "Whatever datagram an endpoint receives, from wherever: if its callbacks call no function of the library, then what changes is exactly this. For each message in it, in order, that is a response: the pending request that has its sequence number (the latest one if there are several) is no longer pending, its use counts are released, and if it was the Association Setup Request of a CP peer that waits for the response, this peer is associated or will retry after T26. No other pending request is given up or sent earlier or later, no response that is kept is forgotten, replaced or kept longer, no sequence number is taken, no other CP peer changes. A datagram that answers no pending request leaves no trace at all.", "quantifier": "all reachable states of an endpoint, all datagrams, all senders, all use counts taken in set_msg_ctx_cb()", "why_tests_cant": "it excludes effects: of every octet string, in every state", "anchors": ["src/libosmo-pfcp/pfcp_endpoint.c:osmo_pfcp_endpoint_handle_rx", "src/libosmo-pfcp/pfcp_endpoint.c:osmo_pfcp_fd_cb", "src/libosmo-pfcp/pfcp_endpoint.c:osmo_pfcp_queue_del", "src/libosmo-pfcp/pfcp_cp_peer.c:on_pfcp_assoc_resp"]}
{"id": "C120", "title": "A request that is answered was processed exactly once", "statement": "In a network as in C86 (timers are handled on time, datagrams arrive within D ms or never, responses are kept for longer than requests may travel, the receiver answers at once and is not closed, no sequence number is used twice), if applications pass responses only for requests that their rx_msg_cb() got: when the resp_cb() of a request other than a heartbeat is called with a response, then rx_msg_cb() of the endpoint that was asked has got this request, with the header and the IEs that were passed to osmo_pfcp_endpoint_tx(), exactly once, and the response has the header and the IEs of one that the application there has passed for it, whatever was lost, delayed, duplicated or reordered.", "quantifier": "all timed executions of networks of endpoints: all losses, delays, duplications and orders of datagrams, all applications as described", "why_tests_cant": "it is about all interleavings and delays in a network, with any number of endpoints and messages", "anchors": ["src/libosmo-pfcp/pfcp_endpoint.c:osmo_pfcp_endpoint_handle_rx", "src/libosmo-pfcp/pfcp_endpoint.c:osmo_pfcp_endpoint_tx", "src/libosmo-pfcp/pfcp_endpoint.c:osmo_pfcp_queue_find", "src/libosmo-pfcp/pfcp_endpoint.c:pfcp_queue_sent_resp_timer_cb"]}
{"id": "C121", "title": "Noise does not change what an endpoint does", "statement": "Consider two histories of an endpoint, which differ in that the second has additional datagrams: of any octets, from anywhere, at any time, which the application does nothing about, and that contain no response with the sequence number of a request that is pending in that moment. If the second history is possible then so is the first, and the endpoint does the same in both: API calls and callbacks have the same results, the same octets are sent to the same addresses at the same times, by osmo_pfcp_endpoint_tx() and by retransmission timers, resp_cb() is called for the same requests with the same responses, CP peers go through the same states, and queues, timers, use counts and sequence numbers are the same in the end. In addition the second endpoint only receives those messages, tells the callbacks about them, and answers them if they are heartbeats or repeated requests. Conversely, if the first history is possible then so is the second, provided that the additional datagrams are well-formed enough: less than 2048 octets, with length fields that cover the headers.", "quantifier": "all reachable states, all histories (API calls in any callback, datagrams, timers), all additional datagrams at all times", "why_tests_cant": "it compares two unbounded histories, with any number of additional datagrams of any octets in between", "anchors": ["src/libosmo-pfcp/pfcp_endpoint.c:osmo_pfcp_endpoint_handle_rx", "src/libosmo-pfcp/pfcp_endpoint.c:osmo_pfcp_fd_cb", "src/libosmo-pfcp/pfcp_endpoint.c:osmo_pfcp_queue_find", "src/libosmo-pfcp/pfcp_endpoint.c:osmo_pfcp_endpoint_tx"]}
{"id": "C122", "title": "Bundling messages makes no difference", "statement": "It makes no difference to an endpoint whether messages with proper headers arrive from a peer one by one, each in a datagram of its own, or bundled in one datagram (of less than 2048 octets): it is in the same state afterwards and has done the same in the same order, whatever its state is and whatever the application does in callbacks. This holds for messages whose IEs cannot be decoded, too. The only exception is that a callback closes the endpoint: it still handles the messages that follow in the same datagram, but does not receive further datagrams.", "quantifier": "all reachable states, all sequences of messages of any octets that fit one datagram, everything the application may do in callbacks", "why_tests_cant": "unbounded sequences of messages, in every state, with every reaction of the application", "anchors": ["src/libosmo-pfcp/pfcp_endpoint.c:osmo_pfcp_fd_cb", "src/libosmo-pfcp/pfcp_endpoint.c:osmo_pfcp_endpoint_handle_rx", "src/libosmo-pfcp/pfcp_msg.c:osmo_pfcp_msg_decode_header", "src/libosmo-pfcp/pfcp_msg.c:osmo_pfcp_msg_decode_tlv"]}
{"id": "C123", "title": "Only the time that passes matters", "statement": "What an endpoint does depends on how much time passes, not on when that is: a history that begins d ms later, in a state that is the same otherwise (timers that are running expire d ms later), has the same outcome, be it a crash: the same octets are sent to the same addresses, the same callbacks are called, in the same order, each exactly d ms later. So does an endpoint that is created d ms later and has the same recovery time stamp. In a network of endpoints the clocks need not agree: whatever can happen, can happen likewise if each clock is off by an amount of its own.", "quantifier": "all d, all states, all histories (API calls in any callback, datagrams, timers); all networks and all offsets of their clocks", "why_tests_cant": "it compares unbounded histories for all amounts of time", "anchors": ["src/libosmo-pfcp/pfcp_endpoint.c:osmo_pfcp_endpoint_retrans_queue_add", "src/libosmo-pfcp/pfcp_endpoint.c:pfcp_queue_retrans", "src/libosmo-pfcp/pfcp_endpoint.c:pfcp_queue_sent_req_timer_cb", "src/libosmo-pfcp/pfcp_cp_peer.c:osmo_pfcp_cp_peer_fsm_state_chg"]}
{"id": "C124", "title": "The order in which expired timers are handled does not matter", "statement": "When the timers of several requests and responses in the queues have expired, the endpoint may handle them in any order: in the end it is in exactly the same state (queues, retransmissions left, timers, sequence number, use counts, CP peers), the same datagrams have been sent to the same addresses, the same resp_cb() have been called and the same messages freed, only in another order; and handling them crashes in one order exactly if it does in the other. (resp_cb() being such that it does not use the endpoint.)", "quantifier": "all reachable states of an endpoint, all sets of expired (or not expired) timers of different messages, all outcomes of the sendto() calls of each, all orders", "why_tests_cant": "n! orders of n timers, in unboundedly many states; a test runs one of them", "anchors": ["src/libosmo-pfcp/pfcp_endpoint.c: pfcp_queue_sent_req_timer_cb, pfcp_queue_sent_resp_timer_cb, pfcp_queue_retrans, osmo_pfcp_queue_del", "src/libosmo-pfcp/pfcp_cp_peer.c: on_pfcp_assoc_resp"]}
{"id": "C125", "title": "The past does not matter; an endpoint with nothing pending is as good as new", "statement": "What an endpoint does from now on depends on its present state only, not on what it did before. In particular, an endpoint that waits for no response and keeps no response (for example after osmo_pfcp_endpoint_bind(), which closes it first) does, whatever the application, the network and the clock do from now on, exactly what a new endpoint does that has the same configuration, recovery time stamp, CP peers and last sequence number: it sends the same octets to the same addresses at the same times, calls the same callbacks in the same order and ends up in the same state, or crashes in the same way. So no message that was sent or received before has any effect any more.", "quantifier": "all reachable states of an endpoint (in which nothing is pending), all further histories: API calls, also inside callbacks, datagrams, timers", "why_tests_cant": "compares two runs for every past and every future", "anchors": ["src/libosmo-pfcp/pfcp_endpoint.c: osmo_pfcp_endpoint_create, osmo_pfcp_endpoint_bind, osmo_pfcp_endpoint_close, osmo_pfcp_endpoint_handle_rx, osmo_pfcp_endpoint_tx"]}
