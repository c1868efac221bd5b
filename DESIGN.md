# Formal model of libosmo-pfcp in Lean 4

Everything here is about a hand-written Lean 4 model of the C sources in /repo. Every definition of the model
carries a comment with the file and lines it was read from. The C code was neither compiled nor run: that the
model is faithful is by reading and by replaying the recorded outputs of the project's own tests (`Recorded*`), and is part of
the trusted base.

Contents: 1 how C is represented; 2 modules; 3 what is modelled and what is not; 4 trusted base; 5 property by
property; 6 findings in the code; 7 how the theorems were tested; 8 axioms of each theorem.

## 1. How C is represented

* **Outcomes.** A function that computes returns `Res α`, one that changes a state returns `Out σ`: success, a
  negative return code (`Out.err` also has the state left behind), `abort` (failed `OSMO_ASSERT`, msgb overflow),
  `ub` (undefined behaviour: access outside the memory behind a pointer, use after free, NULL dereference) or
  `diverge` (a loop that does not end: loops run on fuel, and running out of it is `diverge`). The five are
  different, so "does not crash", "stays in bounds" and "terminates" are theorems and not assumptions.
* **Memory.** What can be read through a pointer is a list of octets that may be *longer* than the length the code
  was told (`Load.mem` against `Load.srcLen`); `rd`/`rdN` outside of it is `ub`. Integers that can wrap around in C
  are `UInt8/16/32/64` or reduced modulo their width where they are computed.
* **Structs.** A decoded struct is a list with, per entry of the coding table, the list of values present (at most
  one for mandatory/optional members, up to `count_max` for arrays). `Kind.cap` is the array size, writing
  beyond it would be `ub`. `Layout` has memory with bytes and offsets instead, and is proved to do the same (C88, C89).
* **The endpoint** is a state machine `Ep` with a log of observable events (datagrams given to the socket,
  callbacks with their arguments, frees, state changes). The application is arbitrary: an inductive type `App` of
  finite API call sequences that is also run inside callbacks (which may call everything again), and a history is
  any list of `Op` (API calls, datagrams received from anywhere, time passing, timers firing in any order, each send
  succeeding or failing). Theorems quantify over all histories `exec ops ep = .ok ep'`.
* **A network** (`SpecNet`) is one endpoint per address; each does what an endpoint can do, and a datagram that one has given
  to sendto() may arrive where it was sent to, any number of times, at any later time. With time (`SpecTimed`): it arrives within a
  bound, or never, and timers are handled on time.
* **CP peers** are part of the endpoint state, with their FSM state, timer and use counts.

## 2. Modules (`lean/Verif/`)

| modules | content |
|---|---|
| `Basic`, `Gtlv`, `Addr`, `DecEnc`, `Move`, `Layout`, `Ies`, `Tables`, `Msg`, `Peer`, `Endpoint`, `Lifetime`, `LayoutStr`, `GenLayoutStr`, `ValueStrs`, `Strs`, `Gen`, `GenText`, `GenPfcp`, `GenLayout`, `PfcpLayout`, `Report` | the model |
| `SpecTlv`, `SpecDecEnc`, `SpecOrd`, `SpecIes`, `SpecMsg`, `SpecEndpoint`, `SpecPeer`, `SpecStrs`, `SpecSafe`, `SpecReads`, `SpecClosed`, `SpecGen`, `SpecMeaning`, `SpecConform`, `SpecNet`, `SpecTimed`, `SpecLayout`, `SpecGenLayout`, `SpecLifetime`, `SpecLayoutStr`, `SpecCloseIn`, `SpecGenText`, `SpecRoom`, `SpecReport`, `SpecOrdAll`, `SpecAnyOrd`, `SpecWrite`, `SpecAlike`, `SpecMoves`, `SpecFormat` | small specifications: what the English words mean, independent of the model's functions |
| `*Lemmas*`, `OrdSpec`, `OrdAll`, `AnyOrd`, `Meaning`, `NetExec`, `Layout{Sim,Dec,Ord,Enc}`, `AsInC`, `GenText{Reads,Other,Array}`, `Report{Blame,Blame2,Blame3,Blame4,Ord,Enc}`, `Endpoint{Steps,Life,Tally,Rx,Use,Peer,Peer2,Retry,Seq,Log,Time,Safe,Moves,Starts,Settled}` | invariants and refinement lemmas |
| `RecordedPfcp`, `RecordedGtlv`, `RecordedDecEnc` | the model run on the inputs of the project's test programs: it prints what is recorded in all five `*.ok` files of /repo/tests (tests of the model, not theorems) |
| `Props*` | the property theorems `Cnn_…`, each followed by an `example` that meets its hypotheses, or by a counterexample theorem where the code violates the property |

## 3. What is modelled and what is not

| source | modelled | not modelled |
|---|---|---|
| `gtlv.c`, `gtlv.h` | all of the loader and writer, `osmo_t8l8v_cfg`, `osmo_t16l16v_cfg`, tag/instance compare; other `osmo_gtlv_cfg` through the abstract `Cfg` (any load/store functions; where needed with the contracts of `SpecFormat`); addresses that wrap around at 2^64 (`Addr`); a store_tl() that moves data in the msgb (`Move`) | logging; what a failing load_tl() leaves in the loader |
| `gtlv_dec_enc.c` | `osmo_gtlvs_decode()` unordered and ordered with any nesting, `osmo_gtlvs_encode()`, limits on table size, counts, presence flags; once on structs whose members are slots (`DecEnc`), once on memory with offsets (`Layout`, `LayoutStr`, proved to agree in C88, C89, C92) | the formatting of error messages (which ones, with which tag and error code: `Report`); the bytes a decoder writes for one value (all bytes of the member, atomically) |
| `pfcp_ies_custom.c` | all 19 decoders and 19 encoders, bit arrays, F-SEID set/compare | octets a failed decoder leaves in the destination |
| `gen__pfcp_ies_auto.c` | the coding tables of all supported messages (`Tables`); the definitions as given to the generator, with all names (`GenPfcp`, extracted from the file by script). C77_pfcp proves that the generator makes `Tables` of `GenPfcp` | spec_ref comments |
| `gtlv_gen.c` | the generator, for any protocol definition (`Gen`): structs, function declarations, arrays, `seen()` with its limits, and what C makes of the declarations (names, duplicates); the characters that are printed (`GenText`), and osmo_gtlv_gen_main() | `printf()` itself; `SpecGenText` says how C text is read |
| `pfcp_msg.c`, `pfcp_msg.h` | header encode/decode, IEs, `osmo_pfcp_msg_encode/decode_*`, bundling and Follow On, allocation for rx/tx/response, sequence numbers, SEIDs, cause/node-id accessors, request/response classification, `osmo_pfcp_ip_addrs_*`, node id conversions, context invalidation, destructor (use counts) | talloc (allocation never fails) |
| `pfcp_endpoint.c` | create, bind, close, free (outside of callbacks and in rx_msg_cb()), tx, tx_data, heartbeat, both queues, both timers, receive loop, duplicate detection, response matching, heartbeat replies, set_ctx, invalidate_ctx, timers' configuration | sockets (a send takes the whole datagram or fails; a receive gives any datagram); `select()`; the accuracy of timers (they may fire any time after their deadline; C55 for firing on time) |
| `pfcp_cp_peer.c` | alloc, associate, set_msg_ctx, the FSM with its state table, association response handling, retry timer, use counts | freeing a peer (there is no API for it) |
| `pfcp_strs.c` | all tables (`ValueStrs`, generated from the file) | - |
| printing (`*_to_str_buf()`, `*_to_str_c()`, `osmo_pfcp_msg_log_info_*`) in all files above | all of it (`Strs`): buffers of any size, NULL, truncation, heap strings | what libosmocore prints for an address, a quoted string or an FSM instance (any text); texts longer than INT_MAX |

Simplifications are stated in the comment of the definition concerned. The main ones: octets behind the
IEs in the receive buffer are given by `Buf.received` (zero-filled 2048 octets as `msgb_alloc` provides); the time is a
natural number of milliseconds; a message object has an identity (`id`) given at `osmo_pfcp_endpoint_tx()` so that frees
and callbacks can be counted; use count callbacks of the application do not call the endpoint.

## 4. Trusted base

1. Lean's kernel (4.33.0). vcheck replays all modules through it.
2. The axioms `propext`, `Quot.sound`, `Classical.choice`, and nothing else: section 8 lists them per theorem. No axiom is
   added, no `native_decide`/`bv_decide`.
3. That the model says what the C code does: by reading (every definition cites lines), and tested on the recorded outputs of
   the code: `Recorded*` replay all `*.ok` files of /repo/tests (all texts and octets printed there are those of the model).
   They found one error in the model, since corrected: `OSMO_STRBUF_PRINTF()` sets `sb.pos` before its arguments are evaluated, so
   that a UE IP address prints with a comma in front.
4. The behaviour of libosmocore, which is not in /repo, as follows: `msgb_put()` aborts on overflow and `msgb_alloc()`
   zero-fills; `osmo_load*be`/`osmo_store*be` are big-endian; `osmo_apn_to_str()`/`osmo_apn_from_str()` as in `apnToStr`,
   `apnFromStr` (Ies.lean); `osmo_sockaddr_from_octets()` and `osmo_sockaddr_to_octets()` as in Ies.lean;
   `osmo_strlcpy()` takes the `strlen()` of its source; `osmo_sockaddr_cmp()` compares family, address, port;
   `osmo_fsm_inst_state_chg()` refuses states not in `out_state_mask` and otherwise calls onleave, sets state and timer, calls
   onenter; `osmo_fsm_inst_dispatch()` refuses events not in `in_event_mask`; `osmo_use_count_get_put()`; `osmo_tdef_get()`;
   `osmo_str_toupper()` (ASCII, 127 characters); `snprintf()`, `OSMO_STRBUF_APPEND/PRINTF`, `OSMO_NAME_C_IMPL`, `get_value_string()` as in Strs.lean, and that
   `osmo_sockaddr_to_str_buf2()`, `osmo_quote_str_buf3()` print their text like `snprintf()`;
   an expired `osmo_timer` is called once from the main loop, one that was deleted is not; `time()`.

## 5. Property by property: what is modelled, how it is proved

*inv* = induction over all histories of the endpoint; *ind* = induction over lists/lengths; *cex* = the property is
false of the code, a counterexample theorem shows it and `_partial` theorems prove what remains true. None of the properties
is left out as inexpressible.

* **C01 TLV put/load round trip** (proved). Writer on an msgb with capacity, loader over the octets written; specification `wire`: concatenation of TLVs. ind on the list of TLVs, for T8L8 and T16L16.
* **C02 TLV loading stays in bounds** (proved). Loader state with memory longer than the window allowed; outcome never `ub`, value inside the window. Case analysis, all states reached from a fresh load.
* **C03 TLV iteration terminates and partitions the buffer** (proved). `osmo_gtlv_load_next()` repeated = partition of the window into TLVs; existence and uniqueness by ind on the remaining length.
* **C04 Peek agrees with load and is pure** (proved). `peekTag` against `loadNext` on the same state.
* **C05 Skip-to-tag finds the first match and is atomic** (proved). Search loop against "first TLV with that tag" on the list of TLVs; atomicity: state unchanged on -ENOENT.
* **C06 TL store limits** (proved). Store functions of both configurations: error iff tag/length out of range or no tailroom; state unchanged on error.
* **C07 Tag/instance comparison is a total order** (proved). Comparison function is a total order (NULL included), zero iff equal tag/instance.
* **C08 Unordered decode enforces mandatory IEs** (proved). Decoder loop refined to a fold over the list of TLVs, codecs arbitrary functions; iff description of success for tables with distinct tags. *Result:* Success characterised on every window; errors for missing minimums; complete iff description for tables with distinct tags.
* **C09 Unknown IEs are ignored** (proved). Inserting unknown TLVs at any position does not change the result; ind on the list.
* **C10 Unordered decode is order independent** (proved). Permutations that keep the relative order of equal tags give the same struct.
* **C11 Surplus IEs are rejected, never overflow** (proved). More IEs than the member can hold: error; the number of stored values never exceeds the capacity.
* **C12 Ordered decode enforces mandatory IEs** (partial). cex (two). Partial: distinct tags and minimums of at most 1. Ordered loop refined to a recursive function on the list of TLVs. *Result:* False as stated (two counterexample theorems: count_mandatory > 1 is not enforced; a full repeated IE skips over mandatory entries). Proved for tables with distinct tags and minimums of at most 1; C12_at_least_one: what holds for every table with distinct tags.
* **C13 Ordered decode rejects disorder** (partial). cex. Partial: the values come from a subsequence of the IEs in table order; two mandatory IEs in the wrong order fail. *Result:* False as stated (counterexample: an out-of-order optional IE is silently dropped). Proved: values are taken in table order from a subsequence of the IEs; two mandatory IEs in the wrong order fail; complete description of the outcome, errors included, for tables with distinct tags (C13_ordered_outcome).
* **C14 Encode/decode round trip (unordered)** (proved). Composition of C16-style description of the encoder and C08-style description of the decoder; nested tables by closure: nesting lawful codings is lawful.
* **C15 Encode/decode round trip (ordered)** (proved). Same for the ordered decoder.
* **C16 Encoding success means a faithful encoding** (partial). cex (little tailroom). Partial: with room, and whenever there is room for a TL afterwards. *Result:* False as stated (counterexample: with less than a TL of tailroom the TL is dropped, rc 0). Proved when the msgb has room, and for every success that leaves room for a TL.
* **C17 Encoder count limit** (proved). Count above count_max: -ENOTSUP before reading that element.
* **C18 Decoding terminates** (proved). All loops end: fuel given by the model (window length) suffices on every input; outcome not `diverge`.
* **C19 PFCP message round trip** (proved). Composition of header, tables and engine; struct well-formedness `MsgOf` stated separately in SpecMsg.
* **C20 Header round trip** (proved). Header fields and octets by arithmetic; all flag combinations.
* **C21 Truncated headers are rejected** (proved). Every window shorter than what the flags announce gives an error.
* **C22 Header decoding yields an in-bounds payload** (partial). cex (length field below header size). Partial: otherwise header length + window = returned length and decoding returns. *Result:* False as stated (C22_counterexample: a length field smaller than the header is accepted, the window length wraps around and decoding its IEs leaves the buffer). Proved for every message whose length field covers its header. C22_exactly: the length of the window for every header that is accepted.
* **C23 Message priority requires SEID** (proved). Encoder and decoder refuse message priority without SEID.
* **C24 Bundles round trip** (proved). ind on the list of messages: encode all into one msgb, receive loop yields them in order.
* **C25 Receive loop terminates** (proved). Receive loop ends on every datagram: each turn consumes octets.
* **C26 Bad message in a bundle does not affect its neighbours** (proved). A message with bad IEs in the middle yields an error for itself only.
* **C27 Unsupported message types** (proved). Types without a coding table: encode and decode return an error. *Result:* C27_no_effect and C27_alone say it at the endpoint: a datagram (or a message of a bundle) whose IEs do not decode changes nothing and is handed to nobody; see also C26, C53.
* **C28 Length field never wraps** (proved). Length field = octets after the first four; larger messages -EMSGSIZE.
* **C29 Failed encode leaves the bundle intact** (partial). cex. Partial: octets of earlier messages other than the Follow On flag stay. *Result:* False as stated (C29_counterexample: Follow On is set on the previous message and partial octets stay). Proved: all octets of earlier messages other than that flag stay. C29_what_is_left: what a failed encoding leaves, for every failure.
* **C30 Sequence numbers** (proved). 24-bit counter: range, never 0, all 2^24-1 values before a repetition. ind on the number of calls.
* **C31 SEIDs** (proved). 64-bit counter: never 0, distinct within 2^64-1 calls.
* **C32 Responses mirror the request** (proved). Allocation of a response and its encoding; down to the octets transmitted by the endpoint.
* **C33 Request/response classification** (proved). Classification of all message types; supported types are those with a table.
* **C34 Cause and Node ID accessors** (proved). Accessors point to the member the message type defines, NULL otherwise; after decoding they give the IE received.
* **C35 IE codec round trips** (proved). Per codec: `decode (encode v) = v` for well-formed values (SpecIes), all 19 codecs. *Result:* Activate Predefined Rules needs a zero octet somewhere behind the IE (true in the zero-filled receive buffer); stated as a hypothesis.
* **C36 IE decoders stay inside the IE** (partial). cex (Activate Predefined Rules). Partial: 18 decoders never `ub`; errors iff too short for the announced parts. *Result:* False as stated for Activate Predefined Rules (C36_counterexample: strlen() of a value without NUL reads behind the IE). Proved for all 18 other decoders; for this one, proved under the assumption that a zero octet follows in memory. C36_apr_exactly: it is undefined behaviour if and only if there is no zero octet in the IE and in the memory behind it.
* **C37 IE decode is canonicalising** (proved). Values that decoders produce are well-formed, encode again, and decode to the same.
* **C38 Outer Header Creation consistency** (proved). Outer Header Creation: flags agree with fields on success, error otherwise.
* **C39 F-SEID/F-TEID/UE IP flags** (proved). Flag octets of F-SEID, F-TEID, UE IP against presence of fields.
* **C40 Node ID encoding** (partial). cex. Partial: address family as the type says. *Result:* False as stated (C40_counterexample: type IPv4 with an IPv6 address is encoded as 0.0.0.0 with success). Proved where the address has the family of the type. C40_exactly gives the octets for every Node ID, of any family.
* **C41 Domain name coding** (proved). DNS label coding: round trip, which names are rejected.
* **C42 Bit array accessors** (proved). Bit get/set on arrays; in bounds iff the bit number is.
* **C43 F-SEID comparison** (partial). cex (two). Partial: order among F-SEIDs with IPv4, among those with IPv6 only, among those with one address each; iff for "equal" and for antisymmetry. *Result:* False as stated (C43_counterexample_*: not reflexive without addresses, equality not transitive with dual-stack). Proved: exactly when two compare as equal (C43_equal_exactly), exactly when the two directions contradict each other (C43_antisymmetric_exactly), and that it is a strict total order among F-SEIDs with one address each (C43_one_address), among those with IPv4, and among those with IPv6 only.
* **C44 IP address set accessors** (partial). cex for get_str. set/get proved. *Result:* set/get proved; get_str does not write the IPv6 output when an IPv4 address is present and both are asked for (C44_counterexample); proved otherwise.
* **C45 Node ID from/to sockaddr** (partial). cex. Partial: output has the family already. *Result:* False as stated (C45_counterexample: a blank output argument makes the conversion back fail). Proved when the output argument has the family already.
* **C46 Bounded identical retransmission** (proved). inv: at most N1+1 transmissions of a request, all with the same octets to the same remote address. *Result:* For all histories of API calls (also from within callbacks), datagrams, timers and send failures.
* **C47 Response callback exactly once** (partial). cex (close). inv: at most once; exactly once for requests neither pending nor dropped by close. *Result:* False as stated (C47_close_without_callback: osmo_pfcp_endpoint_close() drops pending requests without calling resp_cb). Proved apart from this case.
* **C48 Response ends the request** (proved). A matching response removes the request and calls back; a second copy finds nothing. *Result:* For a response whose sequence number belongs to one pending request (always so within a window of 2^24-1 sequence numbers, C54).
* **C49 Responses are matched to their peer** (partial). cex (two). Partial: kind and sequence number match. *Result:* False as stated (C49_response_from_other_peer, C49_duplicate_from_other_peer: the remote address is not compared when a response is matched with its request or a request with a cached response). Proved: kinds and sequence numbers match; C49_exactly: they are matched if and only if these are equal.
* **C50 Retransmitted requests are answered from cache** (proved). A request with the sequence number of a kept response: that response is sent again, no callback.
* **C51 Dispatch rule** (proved). Which callback a received message leads to, for every endpoint state; whole datagrams by ind on the bundle.
* **C52 Heartbeats are always answered** (proved). Heartbeat requests are answered before anything else; only those.
* **C53 Queue discipline** (proved). inv: requests only in the sent-requests queue, responses only in the other, ids distinct; timers never hit an assertion.
* **C54 Pending sequence numbers are unique** (proved). inv on draws of the counter with an explicit window assumption; C54_needs_window shows the need. *Result:* Under the explicit assumption that the counter is not set back and fewer than 2^24-1 numbers are drawn while a request is pending; C54_needs_window shows that it is needed.
* **C55 Retransmission timing** (partial). inv on deadlines; time of failure computed for timers that fire on time. cex for N1 = 0. *Result:* False as stated for N1 = 0 (C55_no_wait: failure is reported at once). Otherwise proved, for T1 and KEEP_RESP as configured at each transmission.
* **C56 Recovery time stamp** (proved). All heartbeat and association messages sent carry the recovery time stamp of the endpoint. *Result:* Association messages: see C61.
* **C57 Context invalidation** (proved). After invalidation no queued message refers to the context; log: no later callback with it.
* **C58 Message ownership** (partial). cex (N1/T1 zero). inv: messages freed at most once, and exactly once when they leave the queue; the zero case characterised. *Result:* False as stated (C58_not_freed: with N1 or T1 zero a sent message is neither queued nor freed). Proved for non-zero N1 and T1; with zero, characterised exactly.
* **C59 Local Node ID** (partial). cex (already encoded). inv on the log of transmissions, composed with the round trip C19. *Result:* False for a message that has been encoded before it is passed (C59_encoded_before). Proved otherwise, down to what the receiver decodes.
* **C60 Peer state machine legality** (partial). inv: every logged change is in the declared table; associate/timer return; response handling: undefined behaviour iff invalidated since tx. *Result:* Transitions proved for all histories. "No assertion" is proved for associate(), the timer, and response handling unless the application invalidates the peer's own FSM instance (C60_invalidated_peer: NULL dereference then); C60_response_exactly: precisely in this case.
* **C61 Association only on acceptance** (partial). cex (any response). inv: a response with the sequence number and accepting cause was received. *Result:* False as stated (C61_any_response: any response with the sequence number and an accepting Cause, of any type and from anywhere, associates the peer). Proved: a response with the right sequence number and Cause was received; assoc_cb(true) exactly then; C61_exactly: associated if and only if such a response has been passed to the CP peer; C61_stays: from then on, always.
* **C62 Single association attempt** (proved). inv: pending association requests of a peer.
* **C63 Association is retried** (partial). cex (close, T26 = 0). inv: waiting has a pending request, WAIT_RETRY has a timer. *Result:* False as stated (C63_close_stuck, C63_no_retry). Proved apart from close() and T26 = 0; and exactly: a CP peer that waits without a pending request remains stuck forever (C63_stuck).
* **C64 Association loss is reported** (partial). cex (release ignored). inv: at most one notification, never false. *Result:* False as stated: nothing in the code notices a lost association (C64_release_ignored). Proved: at most one notification, never false, the peer stays associated.
* **C65 Peer use count balance** (partial). cex (invalidate). inv: use count = number of live messages with that context. *Result:* False as stated after invalidate_ctx() (C65_leak). Proved otherwise, and exactly for all histories: the use count is the number of holders plus the uses that invalidate_ctx() lost (C65_exactly, C65_received_exactly).
* **C66 Message definitions** (proved). Transcribed tables against TS 29.244-style message definitions stated in SpecMsg.
* **C67 Decoded messages are well formed** (proved). inv on decoding: every struct the message decoder yields is well-formed, hence can be encoded.
* **C68 Printing to a buffer** (partial). Model of snprintf and OSMO_STRBUF_* on byte buffers (`Strs`); a strbuf after appending is shown to be the buffer after one snprintf of the concatenated text, for every buffer size, by ind over tables, values and bits. Texts in `SpecStrs`. Cex: nothing is written for a struct without IEs; length with NULL lacks commas; unsupported message types. *Result:* False as stated (counterexample theorems: a struct without IEs leaves the buffer untouched without NUL; with NULL the length for a UE IP address with flags is too small; the text of a message of unsupported type is cut off but counted). Proved for all supported messages, IE values, log lines, tags, and structs with at least one IE. C68_unsupported: exactly what is written for a message of unsupported type.
* **C69 Printing to the heap** (partial). From C68 and the two-step allocation of OSMO_NAME_C_IMPL. Cex: a struct without IEs gives uninitialised memory. *Result:* False as stated for a struct without IEs (C69_counterexample: uninitialised memory is returned). Proved otherwise. C69_unsupported: the same for the allocating variants.
* **C70 Names are unambiguous** (proved). Kernel evaluation on the transcribed tables (no duplicate names, none like an unknown number, no + in bit names), then ind: digits and joined texts are injective.
* **C71 UE IP address flags in text** (proved). Case analysis on the first characters of the texts of two values with arbitrary flags and addresses; also in terms of what is printed to buffers. *Result:* Holds only because of a stray comma: CHV6 prints as "chv4" too, but with a comma in front (as recorded in tests/libosmo-pfcp/pfcp_test.ok for the destination flag).
* **C72 The endpoint does not crash** (proved). Totality of every endpoint and peer function under the invariant `Calm`, by ind over the sequence of operations and over the callbacks' programs; C19 for sendable messages. One counterexample per proviso.
* **C73 Ordered decoding loses no IE** (partial). cex (gap, twice). `inOrder` specifies the outcome for every TLV structure and table with distinct tags; equality by ind on fuel (C13_ordered_outcome). *Result:* False as stated (C73_counterexample_gap, C73_counterexample_twice; also C13_counterexample). Proved: nothing is lost of IEs arranged as in the table; complete description of the outcome in C13_ordered_outcome; C73_exactly: nothing is lost if and only if the IEs are spread out as in the table.
* **C74 What is sent is the message** (partial). cex (Session Modification Request of 2051 octets). An encoder that succeeds writes the same octets with more room (by composition over the IE encoders), so is exact; groups and tables by ind on the layout: exact unless fewer than 4 octets are left. Bound on the longest message by ind on the layout. *Result:* False as stated (C74_counterexample: a Session Modification Request of 2051 octets is sent as a datagram that decodes without error, but without its Apply Action). Proved: exact for all messages that fit, for all other types, and whenever at least four octets of the buffer are left. C74_exactly: a message that encodes is sent faithfully if and only if it has at most 2048 octets.
* **C75 IE decoders return what the octets mean** (proved). Each cursor operation is shown to read what `SpecReads` defines by positions (one lemma per operation), composed per IE kind by case analysis on the flags.
* **C76 A closed endpoint is silent** (proved). Invariant (no socket, empty queues, no traffic logged) through every endpoint and peer function; ind over callbacks' programs and histories.
* **C77 Generated coding tables** (proved). The generator over declarations instead of characters, and C's scoping of names (`Gen`); invariant between the list of seen names and the arrays declared, by ind on the definition and the list of messages; PFCP: kernel evaluation of the definitions plus the general theorem, for all types.
* **C78 Generated structs** (partial). cex (two groups of the same decoded_type). Otherwise, invariant between seen types and structs, ind on the definition; PFCP meets the proviso (kernel evaluation). *Result:* False as stated (C78_counterexample: two groups with the same decoded_type share the struct of the first). Proved if types are used consistently; the PFCP tables are (C78_pfcp). C78_exactly: the struct has room for every nested IE if and only if each has a counterpart in the first group of the same decoded type.
* **C79 Meaning of received octets** (proved). Meaning of octets specified as a relation (`SpecMeaning`), mutual recursion over layouts. C08_unordered_iff for tables whose decoders are given a zero octet behind each IE, C75 and C41 for the IEs, mutual ind over layouts for groups; ind on the receive loop.
* **C80 Header conforms to TS 29.244** (partial). cex (priority). Otherwise corollary of C19 with the standard layout written out. *Result:* False as stated (C80_counterexample: the message priority is put in bits 4-1 instead of 8-5). Proved for all messages without priority. C80_encoding_exactly: equal to the standard if and only if the priority is 0; C80_priority_ignored: a priority received is always read as 0.
* **C81 Version and Follow On flag are respected** (partial). cex. Invariance of the meaning (C79) under the Follow On flag and the version. *Result:* False as stated (C81_counterexample; C81_follow_on_ignored: the flag never makes a difference). Proved: the version is reported to the user, and makes no other difference (C81_version_ignored).
* **C82 Nothing is received that was not sent** (proved). inv over the network: logs grow, only arrivals receive; C51/C79/C19 for the content.
* **C83 A response comes from the peer that was asked** (proved). C82 from both sides, C50/C51 (what is matched), and inv: request numbers are distinct. That both conditions are needed: cex.
* **C84 An association has two ends** (proved). C61 and C83.
* **C85 One delivery is enough** (proved). C82, C51, C50, C48.
* **C86 A request is processed at most once** (proved). Network with time (`SpecTimed`): induction over its histories. Of a request that was dispatched: it was sent at t, and answered at some time not before t (the logs of both ends, `AnsweredAt`). All transmissions of it are within N * v (C55), so a later arrival is before t + N * v + D, when the response is still kept (C55), and is answered from the cache (C50). Counterexamples for each condition, by running networks.
* **C87 A response in time is not lost** (proved). Small-step invariant (`Elapsed`): calls of resp_cb() are past, and a request without resp_cb() is freed, unanswered, only when T1 has passed since its last transmission. With the spacing of transmissions (`sentTimes_spaced`, T1 never less than v; timers may be late) and their number when it is given up (`Life.exact`), the bound follows. In networks: with C85. Examples show that the bound is exact, and that T1 must not be reduced meanwhile.
* **C88 Decoding in memory** (proved). `Layout`: the functions again, now on memory with offsets (`obj`, `memb_ofs`, `memb_array_pitch`, flags, counts). Simulation: after each IE the memory contains the struct that `DecEnc` has (`IsStruct`), everything else is unchanged; ind over IEs and over nesting. Then C08-C18 hold of memory. cex for structs that are not zero, overlap or are too small.
* **C89 Encoding from memory** (proved). The same relation read backwards: encoding at offsets is encoding of the contained struct; ind over table and nesting. Round trip from C14 and C88.
* **C90 Generated tables fit generated structs in memory** (proved). `GenLayout`: offsetof() etc. of the generated declarations with any ABI; `Lawful`: what C guarantees. ind over protocol definitions: the byte ranges of a table are those of its struct. PFCP: C77, C88, C89; the casts of all 19 function pairs agree with the member types (checked by the kernel, finite). Example: the layout on x86-64 (sizeof the union is 110600). cex without consistent types.
* **C91 Freeing an endpoint** (proved). `Lifetime`: a pointer that may be NULL around the endpoint of C46-C87; the CP peers, which outlive it, keep their timers. ind over the history after freeing; exact condition (iff) from the invariant that a running FSM timer means WAIT_RETRY. cex: retry timer; use by the application.
* **C92 Printing from memory** (proved). `LayoutStr`: the function at the level of memory, as for C88/C89; ind over nested tables shows that it does what `Strs` does with slots; what memory contains for members that were not set: `asInC`. For libosmo-pfcp with C77 (tables), C90 (layout), C68 (text). cex: struct too small.
* **C93 F-SEID comparison, exactly** (proved). `fSeidCmp` on all pairs: cases on presence flags, comparison of addresses as a lexicographic order.
* **C94 Which IE values survive** (proved). C35 one way; the other way: whatever a decoder returns is in range (as for C37). Names: induction over labels; where an empty label stands in the middle, the decoder stops there and the result is shorter than the name.
* **C95 Closing an endpoint inside a callback** (proved). Invariant of a message that is held (in a queue, and used up the call stack): kept by every program of the application (structural induction over `App`), so that a program that closes the endpoint does not return. Elsewhere: as C72, with nothing held.
* **C96 Freeing an endpoint inside rx_msg_cb()** (proved). `Lifetime.lean`: reception with osmo_pfcp_endpoint_free() after rx_msg_cb(), and the loop over the rest of the datagram. Freeing is closing (C95) and then NULL; induction over the rest of the datagram.
* **C97 A request that arrives is answered** (proved). Composition: C85 (what an arrival is) and the log of osmo_pfcp_endpoint_tx() for the answer, C83 (whose request it answers), C87 (a response in time is not lost). The condition about sequence numbers: a history of a network that is run by the kernel, C97_locked_out. *Result:* C97_every_copy_answered for each arrival, C97_transaction for the whole exchange. C97_locked_out: the condition about sequence numbers is needed, with the default timers.
* **C98 The generated files are C code with exactly these declarations** (proved). A reader for the subset of C that is needed (SpecGenText): words and symbols, brackets, declarations, initialisers. Each printf() of the model (GenText) is read to a piece, pieces compose; induction on the definition, in parallel with the functions of C77 and C78. *Result:* C98_header, C98_source: the text reads as the declarations of writeH/writeC, of which C77/C78 say what they mean; C98_main for the program; C98_pfcp joins it with C77_pfcp and C78_pfcp.
* **C99 What encoding does with too little room** (proved). A specification that writes IEs to a list of IEs with a given room (SpecRoom: structFate). The state of osmo_gtlvs_encode() - the msgb and the place of the last TL - is the image of that list; step by step, by mutual induction on layouts and types. *Result:* The exact outcome behind C16, C74: C99_message and C99_bundle for osmo_pfcp_msg_encode(), C99_sent, C99_tx_crash and C99_tx_refused for the endpoint; C99_all_happen shows that each outcome occurs.
* **C100 Decoding errors of PFCP messages are reported exactly** (proved). The decoder once more with the calls of err_cb() (Report.lean), proved to return the same; the specification (SpecReport: Blames) says what the first fault is, without decoding. Decoding IE by IE is matched with the longest prefix without fault; mutual induction on layouts and types for what is inside grouped IEs. *Result:* C100_decoding is an equivalence with the specification Blames; C100_reported: at least one report, same code, nesting; C100_unambiguous: only one description fits.
* **C101 libosmo-gtlv reports every decoding error** (partial). Invariants of the decoding loops for any table: success leaves no report, an error the last one. Ordered decoding: a loader invariant says where the IE that was loaded last is, for the one silent return (gtlv_dec_enc.c:411-413). *Result:* Proved for unordered decoding (C101_unordered) and, but for one failure, for ordered decoding (C101_ordered_partial). The claim is false of the code: ordered decoding returns -EBADMSG without a report when a repeated IE is followed by an incomplete IE of the same tag (C101_counterexample), and a NULL table gives -ENOTSUP without a report (C101_counterexample_null).
* **C102 Encoding errors of PFCP messages are reported** (proved). As for decoding: the encoder with its reports returns the same; mutual induction on layouts and types gives the specification Unencoded; each value encoder is shown to return no error but -EINVAL, and that only for the listed values. *Result:* C102_encoding: what is reported; C102_reported and C102_codes: one report per level of nesting, which error codes.
* **C103 A CP peer gets associated** (proved). C97 (the transaction completes) with the invariant (induction over histories) that a CP peer whose resp_cb() got a response with Cause "Request accepted" has become associated, and that "associated" is never left (C61_exactly, C61_stays). *Result:* C103_associates under the assumptions of C97 (an endpoint that is locked out by the sequence number of another one, C97_locked_out, is never associated); C103_rejected: the other direction, for the whole history.
* **C104 Ordered decoding, exactly** (proved). Specification SpecOrdAll.lean (inOrderR: recursion over the table); the two loops are related to it by induction (OrdAll.lean), and every octet string is IEs followed by nothing or by octets that are no IE (C104_all_octets). *Result:* C104_ordered_exactly with C104_all_octets. Entries for no IE at all (count_max 0) are excluded: see C11_ordered_needs_room.
* **C105 Unordered decoding, exactly** (proved). Specification SpecAnyOrd.lean (home: the entry for the n-th IE of a tag); invariant over the loop: the members for a tag are filled in table order (Filled, AnyOrd.lean). C105_sound: the hypothesis on the tables holds for nested tables, to any depth, if it holds for the decoders of the values. *Result:* C105_unordered_exactly with C104_all_octets; C105_sound: nested tables meet the hypotheses of C104 and C105. More than 4096 entries: see C08 to C11.
* **C106 Encoding, exactly** (proved). Specification SpecWrite.lean: a page of IEs with tag, length field and octets, the newest first, instead of the offsets and in-place updates of struct osmo_gtlv_put. Induction over values and table relates the two (WriteLemmas.lean). C106_plain, C106_nested, C106_ies: encoders of all IE types append only, and so do tables of such, to any depth. *Result:* C106_encoding_exactly for any table, C106_message for all PFCP messages. C106_too_long: a value too long for the length field is encoded with length 0 and success (a finding; it cannot occur with the 2048 octets of PFCP messages).
* **C107 Which messages survive** (proved). From the exact meaning of octets (C79) and the exact domain of each IE (C94), by mutual induction over types and layouts (SurviveLemmas.lean): what has been decoded is encoded to its octets; IEs can be told apart; the octets of a value mean this value iff the value is carried. *Result:* C107_ies for the IEs, C107_message for messages. Examples of both outcomes, also within grouped IEs.
* **C108 What the endpoint looks at** (proved). A relation between endpoint states (equal but for the logged message contents and Heartbeat Response destinations) that every function of the endpoint preserves (AlikeLemmas.lean), then induction over histories. *Result:* C108_message for one message, C108_datagrams for datagrams (by their meaning), C108_addresses for histories. Examples: a CP peer is associated by a Session Deletion Response from a stranger; each of the four aspects and the address matter.
* **C109 What moves a CP peer** (proved). An invariant about neighbouring events of the log (SpecMoves.lean), kept by every function of the endpoint (EndpointMoves.lean); the number of attempts of a CP peer is kept by all calls that do not concern it (EndpointStarts.lean). *Result:* C109_associated, C109_retry, C109_request: by log decomposition. C109_isolated: nothing else changes its state. C109_elsewhere, C109_untouched: events that do not call osmo_pfcp_cp_peer_associate() for it and are not its timer.
* **C110 IEs in TL formats of the user** (proved). The contracts of load_tl() and store_tl() as predicates on an abstract `Cfg` (SpecFormat.lean); the round trip by induction over the IEs (FormatLemmas.lean). The two formats of the library and the three of its test programs are proved to keep the contracts. *Result:* C110_put_then_load, C110_known_length (any TL size), C110_search, C110_peek. C110_growing_tl: why the size of the TL must not depend on the length. C110_tliv, C110_tliv_counted, C110_txlxv, C110_library_formats: formats that keep the contracts.
* **C111 Reading in bounds, for any TL format** (partial). A second model of the loader with addresses modulo 2^64 (Addr.lean); proved equal to the first where no sum wraps around, exact condition for acceptance, counterexamples where it does. *Result:* False as stated: the sum of value pointer and length wraps around (C111_wrapped_length: the format of the library's own tliv_test.c accepts an IE of 2^64 - 1 octets; C111_endless: reading never ends). C111_accepted_exactly: exactly which IEs are accepted. Proved for formats whose lengths cannot wrap around (_partial), among them those of the library (C111_library_formats).
* **C112 Structs in TL formats of the user** (proved). The lemmas about decoding and encoding again, with the contracts of SpecFormat.lean instead of the two formats of the library (FormatLemmas.lean). *Result:* C112_round_trip, C112_nested_is_codec (any depth), C112_format_independent, C112_ordered.
* **C113 TL formats whose store_tl() moves data** (proved). A model of the writer and encoder in which store_tl() maps a msgb to a msgb (Move.lean), with its contract as a predicate `StoresMoving`; by induction over pieces, IEs and values; equal to the first model for formats that move nothing. A BER-like format is proved to keep the contract. *Result:* C113_pieces, C113_put_then_load, C113_round_trip, C113_nested_is_codec (any depth), C113_still; C113_growing_tl: a format with TLs that grow with the length keeps the contract.
* **C114 An endpoint comes to rest** (proved). Bounds on the distance of transmissions by induction over the log (twin of C87); distinct identities of queue entries for the size; number of retransmissions left as a measure that each expired timer lowers, for progress (PropsRest.lean). *Result:* C114_request_age, C114_response_age, C114_size, C114_at_rest, C114_comes_to_rest (every history of time and timers only), C114_time_passes (there is one).
* **C115 A loader, whatever it is asked in whatever order** (proved). Simulation between the loader and a list reader (invariant: what is left of the window is the IEs still to come); an invariant for loaders in front of an IE that cannot be read (PropsCursor.lean). *Result:* C115_like_a_reader (simulation), C115_errors_stay, C115_start_anew.
* **C116 What a CP peer sends** (proved). Invariant of every step: the message of each transmission whose response goes to a CP peer (EndpointOwn.lean); its octets by the encoding theorem; C84 for networks (PropsOwn.lean). *Result:* C116_octets, C116_only, C116_received.
* **C117 The trace of reception; an endpoint does not amplify** (proved). Induction over histories with what one reception adds (Reached.rxEvents); counting of transmissions by message (PropsTrace.lean). *Result:* C117_trace, C117_no_amplification.
* **C118 Endpoints do not keep each other busy** (proved). What one delivery adds to the log when applications are silent (EndpointQuiet.lean), the type octet of encoded messages, and induction over deliveries (PropsEcho.lean). *Result:* C118_delivery, C118_echoes; an example reaches the bound.
* **C119 What a datagram can change** (proved). The state after one message is a function of the state before and the message (afterMessage), up to the log; induction over the messages of the datagram. *Result:* C119_exactly, C119_others, C119_unsolicited.
* **C120 A request that is answered was processed exactly once** (proved). From C83 (who answered) and C86 (at most once), for the request that the response was passed for. *Result:* C120_answered_exactly_once; the example: a request received three times.
* **C121 Noise does not change what an endpoint does** (proved). A simulation: every function of the endpoint commutes with renumbering messages and with replacing the log (EndpointRen), and noise only takes numbers and adds to the log (C119); by induction on the two histories. The converse: handling such a datagram cannot fail in a reachable state. *Result:* C121_noise (the whole log and state), C121_effects (what is sent, CP peers and resp_cb(), without numbers), C121_undisturbed (the converse: noise prevents nothing). Timers are identified by the place of their message in its queue, since additional messages change the numbers that the model gives to messages.
* **C122 Bundling messages makes no difference** (proved). The receive loop takes one message after the other (C26); induction on the list of messages. *Result:* C122_split (one message and whatever follows), C122_bundled, C122_unbundled (the converse, with the exception of a callback that closes the endpoint; an example shows it).
* **C123 Only the time that passes matters** (proved). Every function of the endpoint commutes with shifting the clock, the timers and the times in the log (EndpointShift); induction on the history. *Result:* C123_later, C123_created, C123_clocks, C123_clocks_reached. Time is a natural number of ms in the model; wrap-around of struct timeval is not modelled.
* **C124 The order in which expired timers are handled does not matter** (proved). Handling the timer of one message is one update of the entry of that message, the use counts of its context and its CP peer, and such updates commute; induction on the permutation. *Result:* C124_timer_order, C124_timer_crash. Timers of CP peers (T26) are not included: they draw sequence numbers, so their order shows in the numbers of the requests.
* **C125 The past does not matter; an endpoint with nothing pending is as good as new** (proved). Every function of the endpoint commutes with renumbering messages and replacing the log (EndpointRen, as for C121); induction on the history. A state with empty queues is a renumbered new endpoint. *Result:* C125_past, C125_as_new, C125_restart. `asNew` takes over sequence number, CP peers and use counts; a new endpoint gets them by osmo_pfcp_endpoint_set_seq_nr_state() and osmo_pfcp_cp_peer_alloc().

## 6. Findings in the code

Each is a theorem about the model (name in brackets).

* A PFCP length field smaller than the header makes the IE window length wrap around; decoding then reads far outside
  the buffer [C22_counterexample]. Reachable from the network: twelve octets crash every open endpoint [C72_short_length].
* Activate Predefined Rules: `strlen()` on an IE without NUL reads behind the IE [C36_counterexample]; a datagram that fills
  the 2048 octets of the receive buffer leaves no NUL [C72_full_buffer].
* Responses are matched to requests, and requests to cached responses, by sequence number only: anybody can answer
  for the peer, and the cached response for one peer is sent to another [C49_*]. Neither the type of a response nor its
  sender matters for the association of a CP peer [C61_any_response]. As the first request of every endpoint has number 1, two
  endpoints that associate with a third one within a second are enough: the second one is never answered, though nothing is lost, and reports
  failure after 12 s [C97_locked_out].
* `osmo_pfcp_endpoint_close()` drops pending requests without `resp_cb` [C47_close_without_callback]; a CP peer that was
  waiting is stuck for good [C63_close_stuck].
* N1 = 0 or T1 = 0: sent messages leak [C58_not_freed]; N1 = 0 reports failure right after sending [C55_no_wait].
* `osmo_pfcp_endpoint_free()` leaves the retry timers of CP peers running: when one expires, the freed endpoint is accessed
  [C91_retry_crash, C91_safe_iff].
* T26 = 0: a failed association is never retried [C63_no_retry].
* Invalidating a peer's own FSM instance while its request is pending makes the response handler dereference NULL
  [C60_invalidated_peer]; it also leaks the use count [C65_leak].
* Nothing notices the loss of an association: the peer stays ASSOCIATED [C64_release_ignored].
* Calling close/bind from within a callback of a queued message frees the queue entry in use (use after free; outcome `ub`
  of the model) [C72_close_in_callback, C95_*]. Freeing the endpoint from within rx_msg_cb() is a use after free if another message
  follows in the same datagram [C96_bundle, C96_datagram].
* Ordered decoding: `count_mandatory > 1` is not enforced, a full repeated IE skips mandatory ones [C12_counterexample_*],
  out-of-order optional IEs are silently dropped [C13_counterexample], as are repetitions behind an unknown IE and surplus
  ones [C73_*]; a count_max of 0 is not respected [C11_ordered_needs_room].
* Encoding ignores the return codes of writing the TL; with little tailroom it returns 0 without the TL [C16_counterexample],
  and for a value too long for the length field, or a tag too large, it returns 0 with a wrong length or without the TL
  [C106_too_long, C106_encoding_exactly]. Larger overflows abort the process (`msgb_put`) [C72_too_long].
  At the endpoint: a Session Modification Request of 2051 octets is sent as a datagram of 2047 octets that the receiver
  accepts, but in which the Apply Action of an Update FAR is missing [C74_counterexample].
  Such a message may as well abort the program in msgb_put(), or be refused if it ends with a name; which of it depends on
  single octets [C99_message, C99_all_happen].
* Ordered decoding returns -EBADMSG without calling err_cb() when a repeated IE is followed by an incomplete IE of the same
  tag (gtlv_dec_enc.c:411-413) [C101_counterexample]; a NULL table is not reported either, which for PFCP is every message type
  without a layout [C101_counterexample_null, C100_decoding, C102_encoding].
* The generator gtlv_gen.c does not notice that two IEs with different nested IEs have the same `decoded_type`: it writes the
  struct of the first for both, so that the table of the second can make the decoder write behind an array
  [C78_counterexample]. Names of more than 255 characters can get the wrong table [C77_long_names]. PFCP is not affected
  [C77_pfcp, C78_pfcp].
* A definition of a nested IE with a `spec_ref`, and no `spec_ref_prefix` in the configuration, passes NULL to printf("%s")
  (gtlv_gen.c:136-137) [C98_null_prefix].
* `membof()` of gtlv_dec_enc.c asserts that the first byte of a member is inside of the struct; a member (or flag, count, element) that
  begins inside and ends outside is written [C88_too_small]. Decoding to a struct that is not zeroed appends or refuses [C88_not_zero].
* A failed message encode leaves partial octets and Follow On set on the previous message [C29_counterexample].
* Node ID of type IPv4 with an IPv6 address encodes as 0.0.0.0 [C40_counterexample]; the conversion to a sockaddr depends on
  the previous contents of its output [C45_counterexample]; `osmo_pfcp_ip_addrs_get_str()` leaves the IPv6 output unset
  [C44_counterexample]; `osmo_pfcp_ie_f_seid_cmp()` is not an equivalence [C43_*].
* A message encoded before it is passed to tx keeps its stale Node ID [C59_encoded_before].
* After osmo_gtlv_load_next() has told the end of the window (`val == NULL`) the next call begins again with the first IE: a loop that misses the end never ends [C115_like_a_reader].
* `osmo_gtlvs_encode_to_str_buf()` writes nothing, not even a NUL, for a struct without IEs, so that the `_c` variant returns
  uninitialised memory [C68_counterexample_no_ie, C69_counterexample]. A UE IP address with CHV6 prints "chv4"
  (a stray comma in front is all that tells it from CHV4 [C71_flags]), and with NULL its length is too small [C68_counterexample_null]. The text of a message of unsupported type
  is cut off, but its end is counted [C68_counterexample_unsupported].
* Setting the sequence counter back can give two pending requests the same number [C54_needs_window].
* `osmo_gtlv_load_next()` adds the length to the value pointer before it checks it (gtlv.c:149-152): a length near SIZE_MAX, which a user-defined
  format can have (gtlv.h:48-50 allows it), wraps around and is accepted. In the format of tliv_test.c a three octet IE `01 00 xx` has 2^64 - 1 octets
  [C111_wrapped_length]; with eight octet lengths, reading does not end [C111_endless]. The formats of the library are not affected
  [C111_library_formats].
* TLs that grow with the length cannot be used with osmo_gtlv_put_update_tl() (and so not with osmo_gtlvs_encode()), unless store_tl() moves the
  data itself [C110_growing_tl]; then they can [C113_growing_tl, C113_round_trip].
* The message priority is put in the low nibble (TS 29.244 7.2.2.3: bits 8-5) [C80_counterexample]; the version is not checked on
  receipt, and the receive loop ignores Follow On [C81_*].

## 7. How the theorems were tested

`seeded/LOG.jsonl` has one line per wrong program: a definition of the model was edited in a scratch copy as a realistic
bug would, everything was rebuilt (`tools/mutrun.py` replaces each failing proof and goes on, so that all theorems that
depend on the broken fact are found), and it was checked that the theorems of the claims the edit falsifies are among those
that fail. Where they were not, the theorem was tightened.

## 8. Axioms of each theorem

Generated by `#print axioms` (`tools/design.py` writes this file).

* Classical.choice, Quot.sound, propext (326): C01_put_then_load_t16l16v, C01_put_then_load_t8l8v, C02_load_next_in_bounds, C03_iteration_partitions_t16l16v, C03_iteration_partitions_t8l8v, C03_partition_unique, C04_peek_returns, C05_next_by_tag_first_match, C05_next_by_tag_on_ies, C07_cmp_zero_iff_eq, C07_cmp_neg_iff_lt, C07_cmp_transitive, C08_unordered_success, C08_missing_is_error, C08_missing_is_einval, C08_unordered_iff, C08_missing_exactly, C09_unknown_ignored, C10_order_independent, C11_never_overflows, C11_surplus_fails, C11_surplus_is_enotsup, C11_surplus_exactly, C11_ordered_never_overflows, C12_ordered_mandatory_partial, C12_at_least_one, C13_ordered_values_in_order_partial, C13_mandatory_disorder_fails_partial, C13_ordered_outcome, C14_round_trip_unordered, C14_nested_is_codec, C15_round_trip_ordered, C16_faithful_partial, C16_success_with_room_left_partial, C17_over_maximum_is_enotsup, C17_no_read_beyond_maximum, C17_exactly, C18_decoding_ends, C18_nested_ends, C19_message_round_trip, C19_every_message, C20_header_round_trip, C22_exactly, C22_decode_tlv_returns_partial, C24_bundle_encoding, C24_bundle_reception, C25_receive_loop_ends, C25_at_most_quarter, C25_progress, C26_no_effect, C26_bad_message_is_skipped, C26_messages_are_independent, C27_no_effect, C27_alone, C28_length_is_exact, C28_too_long_is_emsgsize, C28_never_too_long, C29_what_is_left, C29_earlier_octets_stay_partial, C30_in_range, C30_no_repetition, C30_period, C32_transmitted, C32_encoded_sequence_number, C34_accessors_after_decode, C35_encodes, C35_decodes, C35_round_trip, C36_inside_partial, C36_too_short, C37_canonical, C38_decoder, C39_f_seid, C39_f_teid, C39_ue_ip_address, C40_exactly, C40_node_id_partial, C41_round_trip, C42_set_get, C43_equal_exactly, C43_antisymmetric_exactly, C43_one_address, C43_order_partial, C46_bounded_identical, C46_same_octets, C46_remaining, C47_at_most_once, C47_none, C47_exactly_once_partial, C48_response_ends_request, C48_second_copy, C49_matching_partial, C49_exactly, C50_answered_from_cache, C51_dispatch_rule, C51_datagram, C51_bundle, C52_heartbeat_answered, C52_only_heartbeats, C52_heartbeat_datagram, C53_queues, C53_close, C53_timer_assertions, C53_receives, C54_unique, C54_response_identifies_request, C54_in_range, C55_not_before_partial, C55_on_time, C55_failure_time, C55_response_kept, C55_response_released, C56_heartbeat_request, C56_every_heartbeat, C58_at_most_once, C58_exactly_once_partial, C58_zero_timers, C58_failure_frees, C59_node_id_set, C59_on_the_wire_partial, C59_encoded_before, C60_response_exactly, C60_declared, C60_taken, C60_state, C60_associate_returns, C60_timer_returns, C60_kept, C60_response_handled_partial, C61_stays, C61_exactly, C61_accepted_partial, C61_callback, C61_evaluated, C62_one, C62_waiting, C62_attempt, C63_stuck, C63_retried_partial, C63_another_attempt, C63_retry_time, C63_retry_starts, C64_never_false, C64_stays_associated, C64_called_once_partial, C65_balance_partial, C65_exactly, C65_held, C65_once, C65_received_exactly, C65_received_partial, C65_received_held, C67_decoded_is_well_formed, C68_ie, C68_bits, C68_message, C68_received, C68_struct_partial, C68_counterexample_no_ie, C68_null_partial, C68_ie_null_partial, C68_surplus, C69_message, C69_ie, C69_struct_partial, C69_counterexample, C70_names, C72_no_crash, C72_sendable, C73_exactly, C73_nothing_lost_partial, C74_exactly, C74_encoding_partial, C74_sent_faithfully_partial, C74_others_fit, C74_others_sent_faithfully, C75_decoders, C76_closed, C76_created, C76_not_bound, C76_bind_discards, C76_bound, C77_rejects, C79_function, C79_decoding, C79_unambiguous, C79_datagram, C80_encoding_partial, C80_encoding_exactly, C80_priority_ignored, C81_follow_on_ignored, C81_version_reported_partial, C81_version_ignored, C82_sent, C82_integrity, C83_distinct_numbers, C83_resp_cb, C83_dispatch, C84_associated, C85_request_delivered, C85_response_delivered, C86_at_most_once, C86_default_timers, C87_not_given_up, C87_not_reported, C87_waits, C87_response_in_time, C88_decode, C88_only_its_struct, C88_no_assertion, C88_members, C89_encode, C89_round_trip, C90_fits, C90_pfcp_decode, C90_pfcp_returns, C90_pfcp_encode, C91_free, C91_nothing_left, C91_safe_iff, C91_whole_life, C92_print, C92_returns, C92_encode_unset, C92_pfcp, C92_pfcp_message, C92_pfcp_received, C92_pfcp_fresh, C93_antisymmetric, C93_total_order, C94_survives, C95_response, C95_assoc_cb, C95_duplicate, C95_timeout, C95_otherwise, C96_unmatched, C96_response, C96_datagram, C97_every_copy_answered, C97_transaction, C98_header, C98_source, C98_main, C98_pfcp, C99_ie, C99_message, C99_bundle, C99_fits, C99_cut, C99_sent, C99_tx_crash, C99_tx_refused, C100_decoding, C100_unambiguous, C101_unordered, C101_ordered_partial, C103_associates, C103_rejected, C104_ordered_exactly, C104_all_octets, C105_unordered_exactly, C105_sound, C106_encoding_exactly, C106_nested, C106_message, C106_too_long, C107_ies, C107_message, C108_datagrams, C109_associated, C109_retry, C109_request, C109_isolated, C109_elsewhere, C109_untouched, C110_search, C110_library_formats, C110_txlxv, C111_accepted_exactly, C111_same_partial, C111_loops_same_partial, C111_in_bounds_partial, C111_ends_partial, C111_library_formats, C111_wrapped_length, C111_endless, C112_round_trip, C112_nested_is_codec, C112_format_independent, C112_ordered, C113_round_trip, C113_nested_is_codec, C114_request_age, C114_response_age, C114_was_sent, C114_size, C114_at_rest, C114_comes_to_rest, C114_time_passes, C115_like_a_reader, C116_octets, C116_only, C116_received, C117_trace, C117_no_amplification, C118_delivery, C118_echoes, C119_exactly, C119_others, C119_unsolicited, C120_answered_exactly_once, C121_noise, C121_effects, C121_undisturbed, C122_split, C122_bundled, C122_unbundled, C123_later, C123_clocks, C123_clocks_reached, C124_timer_order, C124_timer_crash, C125_past, C125_as_new, C125_restart
* Quot.sound, propext (124): C04_peek_enoent_iff_end, C06_update_tl_t8l8v, C06_put_tl_t16l16v, C06_put_tl_t8l8v, C06_update_tl_t16l16v, C07_cmp_antisymmetric, C17_over_maximum_fails, C21_truncated_rejected, C21_in_bounds, C22_counterexample, C22_window_partial, C23_encode_priority_needs_seid, C23_decode_priority_needs_seid, C27_encode_unsupported, C27_decode_unsupported, C29_counterexample, C31_no_repetition, C32_own_messages, C32_response_mirrors_request, C32_request, C33_supported_types, C34_accessors_exist, C34_accessors_after_alloc, C36_apr_exactly, C36_counterexample, C36_apr_partial, C36_long_enough, C38_encoder, C39_wrong_family_refused, C41_overrun_refused, C41_zero_octet, C42_get, C44_get_str_exactly, C44_get, C44_get_str_fails, C45_exactly, C47_close_without_callback, C49_response_from_other_peer, C49_duplicate_from_other_peer, C53_is_busy, C54_needs_window, C55_no_wait, C56_fixed, C57_invalidated, C58_not_freed, C59_every_message, C60_invalidated_peer, C61_any_response, C62_busy, C63_close_stuck, C63_no_retry, C63_not_before, C64_release_ignored, C65_leak, C65_unqueued, C66_message_definitions, C68_unsupported, C68_addresses, C68_tag, C68_log_info, C68_log_info_unset, C68_log_info_null, C68_counterexample_null, C69_unsupported, C69_log_info, C69_tag, C70_known, C70_bits, C71_printed, C71_same_output, C72_framed_covered, C72_short_length, C72_full_buffer, C72_too_long, C72_close_in_callback, C72_invalidated_peer, C74_counterexample, C77_tables, C77_get_msg_coding, C77_compiles, C77_functions, C77_pfcp, C77_long_names, C78_room_partial, C78_pfcp, C78_counterexample, C78_exactly, C80_counterexample, C81_counterexample, C83_reused_number, C83_unasked_response, C86_slow_application, C86_bound_is_sharp, C86_closed_between, C87_reduced_timer, C90_needs_consistent, C91_twice, C91_silent, C91_use_exactly, C91_use_after_free, C91_associate_after_free, C91_retry_crash, C92_no_table, C93_equal, C96_next, C96_bundle, C96_matched, C97_locked_out, C100_reported, C102_encoding, C102_reported, C106_ies, C108_message, C108_addresses, C110_put_then_load, C110_known_length, C110_peek, C110_tliv, C110_tliv_counted, C110_growing_tl, C113_pieces, C113_put_then_load, C113_still, C113_growing_tl
* none (2): C98_null_prefix, C106_plain
* propext (34): C04_peek_agrees_with_load, C11_ordered_needs_room, C12_counterexample_count, C12_counterexample_skip, C13_counterexample, C16_counterexample, C31_not_zero, C33_response_types, C40_counterexample, C43_counterexample_not_reflexive, C43_counterexample_not_transitive, C43_null, C44_set_get, C44_counterexample, C44_get_str_partial, C44_f_seid_set, C45_counterexample, C45_round_trip_partial, C57_others_unchanged, C68_counterexample_unsupported, C71_flags, C73_counterexample_gap, C73_counterexample_twice, C88_not_zero, C88_overlap, C88_too_small, C92_too_small, C99_all_happen, C101_counterexample, C101_counterexample_null, C102_codes, C115_errors_stay, C115_start_anew, C123_created

