# Formal model of libosmo-pfcp in Lean 4

Everything here is about a hand-written Lean 4 model of the C sources in /repo. Every definition of the model
carries a comment with the file and lines it was read from. The C code was neither compiled nor run: that the
model is faithful is by reading and by replaying the recorded outputs of the project's own tests (`Recorded*`), and is part of
the trusted base.

Contents: 1 how C is represented; 2 modules; 3 what is modelled and what is not; 4 trusted base; 5 property by
property; 6 findings in the code; 7 how the theorems were tested; 8 axioms of each theorem.

## 1. How C is represented

* **Outcomes.** A function that computes returns `Res α`, one that changes a state returns `Out σ`: success, a
  negative return code (`Out.err` also has the state left behind), `abort` (failed `OSMO_ASSERT`, msgb overflow),
  `ub` (undefined behaviour: access outside the memory behind a pointer, use after free, NULL dereference) or
  `diverge` (a loop that does not end: loops run on fuel, and running out of it is `diverge`). The five are
  different, so "does not crash", "stays in bounds" and "terminates" are theorems and not assumptions.
* **Memory.** What can be read through a pointer is a list of octets that may be *longer* than the length the code
  was told (`Load.mem` against `Load.srcLen`); `rd`/`rdN` outside of it is `ub`. Integers that can wrap around in C
  are `UInt8/16/32/64` or reduced modulo their width where they are computed.
* **Structs.** A decoded struct is a list with, per entry of the coding table, the list of values present (at most
  one for mandatory/optional members, up to `count_max` for arrays). `Kind.cap` is the array size, writing
  beyond it would be `ub`. `Layout` has memory with bytes and offsets instead, and is proved to do the same (C88, C89).
* **The endpoint** is a state machine `Ep` with a log of observable events (datagrams given to the socket,
  callbacks with their arguments, frees, state changes). The application is arbitrary: an inductive type `App` of
  finite API call sequences that is also run inside callbacks (which may call everything again), and a history is
  any list of `Op` (API calls, datagrams received from anywhere, time passing, timers firing in any order, each send
  succeeding or failing). Theorems quantify over all histories `exec ops ep = .ok ep'`.
* **A network** (`SpecNet`) is one endpoint per address; each does what an endpoint can do, and a datagram that one has given
  to sendto() may arrive where it was sent to, any number of times, at any later time. With time (`SpecTimed`): it arrives within a
  bound, or never, and timers are handled on time.
* **CP peers** are part of the endpoint state, with their FSM state, timer and use counts.

## 2. Modules (`lean/Verif/`)

| modules | content |
|---|---|
| `Basic`, `Gtlv`, `Addr`, `DecEnc`, `Move`, `Layout`, `Ies`, `Tables`, `Msg`, `Peer`, `Endpoint`, `Lifetime`, `LayoutStr`, `GenLayoutStr`, `ValueStrs`, `Strs`, `Gen`, `GenText`, `GenPfcp`, `GenLayout`, `PfcpLayout`, `Report` | the model |
| `SpecTlv`, `SpecDecEnc`, `SpecOrd`, `SpecIes`, `SpecMsg`, `SpecEndpoint`, `SpecPeer`, `SpecStrs`, `SpecSafe`, `SpecReads`, `SpecClosed`, `SpecGen`, `SpecMeaning`, `SpecConform`, `SpecNet`, `SpecTimed`, `SpecLayout`, `SpecGenLayout`, `SpecLifetime`, `SpecLayoutStr`, `SpecCloseIn`, `SpecGenText`, `SpecRoom`, `SpecReport`, `SpecOrdAll`, `SpecAnyOrd`, `SpecWrite`, `SpecAlike`, `SpecMoves`, `SpecFormat` | small specifications: what the English words mean, independent of the model's functions |
| `*Lemmas*`, `OrdSpec`, `OrdAll`, `AnyOrd`, `Meaning`, `NetExec`, `Layout{Sim,Dec,Ord,Enc}`, `AsInC`, `GenText{Reads,Other,Array}`, `Report{Blame,Blame2,Blame3,Blame4,Ord,Enc}`, `Endpoint{Steps,Life,Tally,Rx,Use,Peer,Peer2,Retry,Seq,Log,Time,Safe,Moves,Starts,Settled}` | invariants and refinement lemmas |
| `RecordedPfcp`, `RecordedGtlv`, `RecordedDecEnc` | the model run on the inputs of the project's test programs: it prints what is recorded in all five `*.ok` files of /repo/tests (tests of the model, not theorems) |
| `Props*` | the property theorems `Cnn_…`, each followed by an `example` that meets its hypotheses, or by a counterexample theorem where the code violates the property |

## 3. What is modelled and what is not

| source | modelled | not modelled |
|---|---|---|
| `gtlv.c`, `gtlv.h` | all of the loader and writer, `osmo_t8l8v_cfg`, `osmo_t16l16v_cfg`, tag/instance compare; other `osmo_gtlv_cfg` through the abstract `Cfg` (any load/store functions; where needed with the contracts of `SpecFormat`); addresses that wrap around at 2^64 (`Addr`); a store_tl() that moves data in the msgb (`Move`) | logging; what a failing load_tl() leaves in the loader |
| `gtlv_dec_enc.c` | `osmo_gtlvs_decode()` unordered and ordered with any nesting, `osmo_gtlvs_encode()`, limits on table size, counts, presence flags; once on structs whose members are slots (`DecEnc`), once on memory with offsets (`Layout`, `LayoutStr`, proved to agree in C88, C89, C92) | the formatting of error messages (which ones, with which tag and error code: `Report`); the bytes a decoder writes for one value (all bytes of the member, atomically) |
| `pfcp_ies_custom.c` | all 19 decoders and 19 encoders, bit arrays, F-SEID set/compare | octets a failed decoder leaves in the destination |
| `gen__pfcp_ies_auto.c` | the coding tables of all supported messages (`Tables`); the definitions as given to the generator, with all names (`GenPfcp`, extracted from the file by script). C77_pfcp proves that the generator makes `Tables` of `GenPfcp` | spec_ref comments |
| `gtlv_gen.c` | the generator, for any protocol definition (`Gen`): structs, function declarations, arrays, `seen()` with its limits, and what C makes of the declarations (names, duplicates); the characters that are printed (`GenText`), and osmo_gtlv_gen_main() | `printf()` itself; `SpecGenText` says how C text is read |
| `pfcp_msg.c`, `pfcp_msg.h` | header encode/decode, IEs, `osmo_pfcp_msg_encode/decode_*`, bundling and Follow On, allocation for rx/tx/response, sequence numbers, SEIDs, cause/node-id accessors, request/response classification, `osmo_pfcp_ip_addrs_*`, node id conversions, context invalidation, destructor (use counts) | talloc (allocation never fails) |
| `pfcp_endpoint.c` | create, bind, close, free (outside of callbacks and in rx_msg_cb()), tx, tx_data, heartbeat, both queues, both timers, receive loop, duplicate detection, response matching, heartbeat replies, set_ctx, invalidate_ctx, timers' configuration | sockets (a send takes the whole datagram or fails; a receive gives any datagram); `select()`; the accuracy of timers (they may fire any time after their deadline; C55 for firing on time) |
| `pfcp_cp_peer.c` | alloc, associate, set_msg_ctx, the FSM with its state table, association response handling, retry timer, use counts | freeing a peer (there is no API for it) |
| `pfcp_strs.c` | all tables (`ValueStrs`, generated from the file) | - |
| printing (`*_to_str_buf()`, `*_to_str_c()`, `osmo_pfcp_msg_log_info_*`) in all files above | all of it (`Strs`): buffers of any size, NULL, truncation, heap strings | what libosmocore prints for an address, a quoted string or an FSM instance (any text); texts longer than INT_MAX |

Simplifications are stated in the comment of the definition concerned. The main ones: octets behind the
IEs in the receive buffer are given by `Buf.received` (zero-filled 2048 octets as `msgb_alloc` provides); the time is a
natural number of milliseconds; a message object has an identity (`id`) given at `osmo_pfcp_endpoint_tx()` so that frees
and callbacks can be counted; use count callbacks of the application do not call the endpoint.

## 4. Trusted base

1. Lean's kernel (4.33.0). vcheck replays all modules through it.
2. The axioms `propext`, `Quot.sound`, `Classical.choice`, and nothing else: section 8 lists them per theorem. No axiom is
   added, no `native_decide`/`bv_decide`.
3. That the model says what the C code does: by reading (every definition cites lines), and tested on the recorded outputs of
   the code: `Recorded*` replay all `*.ok` files of /repo/tests (all texts and octets printed there are those of the model).
   They found one error in the model, since corrected: `OSMO_STRBUF_PRINTF()` sets `sb.pos` before its arguments are evaluated, so
   that a UE IP address prints with a comma in front.
4. The behaviour of libosmocore, which is not in /repo, as follows: `msgb_put()` aborts on overflow and `msgb_alloc()`
   zero-fills; `osmo_load*be`/`osmo_store*be` are big-endian; `osmo_apn_to_str()`/`osmo_apn_from_str()` as in `apnToStr`,
   `apnFromStr` (Ies.lean); `osmo_sockaddr_from_octets()` and `osmo_sockaddr_to_octets()` as in Ies.lean;
   `osmo_strlcpy()` takes the `strlen()` of its source; `osmo_sockaddr_cmp()` compares family, address, port;
   `osmo_fsm_inst_state_chg()` refuses states not in `out_state_mask` and otherwise calls onleave, sets state and timer, calls
   onenter; `osmo_fsm_inst_dispatch()` refuses events not in `in_event_mask`; `osmo_use_count_get_put()`; `osmo_tdef_get()`;
   `osmo_str_toupper()` (ASCII, 127 characters); `snprintf()`, `OSMO_STRBUF_APPEND/PRINTF`, `OSMO_NAME_C_IMPL`, `get_value_string()` as in Strs.lean, and that
   `osmo_sockaddr_to_str_buf2()`, `osmo_quote_str_buf3()` print their text like `snprintf()`;
   an expired `osmo_timer` is called once from the main loop, one that was deleted is not; `time()`.

## 5. Property by property: what is modelled, how it is proved

*inv* = induction over all histories of the endpoint; *ind* = induction over lists/lengths; *cex* = the property is
false of the code, a counterexample theorem shows it and `_partial` theorems prove what remains true. None of the properties
is left out as inexpressible.

@@HOW@@
## 6. Findings in the code

Each is a theorem about the model (name in brackets).

* A PFCP length field smaller than the header makes the IE window length wrap around; decoding then reads far outside
  the buffer [C22_counterexample]. Reachable from the network: twelve octets crash every open endpoint [C72_short_length].
* Activate Predefined Rules: `strlen()` on an IE without NUL reads behind the IE [C36_counterexample]; a datagram that fills
  the 2048 octets of the receive buffer leaves no NUL [C72_full_buffer].
* Responses are matched to requests, and requests to cached responses, by sequence number only: anybody can answer
  for the peer, and the cached response for one peer is sent to another [C49_*]. Neither the type of a response nor its
  sender matters for the association of a CP peer [C61_any_response]. As the first request of every endpoint has number 1, two
  endpoints that associate with a third one within a second are enough: the second one is never answered, though nothing is lost, and reports
  failure after 12 s [C97_locked_out].
* `osmo_pfcp_endpoint_close()` drops pending requests without `resp_cb` [C47_close_without_callback]; a CP peer that was
  waiting is stuck for good [C63_close_stuck].
* N1 = 0 or T1 = 0: sent messages leak [C58_not_freed]; N1 = 0 reports failure right after sending [C55_no_wait].
* `osmo_pfcp_endpoint_free()` leaves the retry timers of CP peers running: when one expires, the freed endpoint is accessed
  [C91_retry_crash, C91_safe_iff].
* T26 = 0: a failed association is never retried [C63_no_retry].
* Invalidating a peer's own FSM instance while its request is pending makes the response handler dereference NULL
  [C60_invalidated_peer]; it also leaks the use count [C65_leak].
* Nothing notices the loss of an association: the peer stays ASSOCIATED [C64_release_ignored].
* Calling close/bind from within a callback of a queued message frees the queue entry in use (use after free; outcome `ub`
  of the model) [C72_close_in_callback, C95_*]. Freeing the endpoint from within rx_msg_cb() is a use after free if another message
  follows in the same datagram [C96_bundle, C96_datagram].
* Ordered decoding: `count_mandatory > 1` is not enforced, a full repeated IE skips mandatory ones [C12_counterexample_*],
  out-of-order optional IEs are silently dropped [C13_counterexample], as are repetitions behind an unknown IE and surplus
  ones [C73_*]; a count_max of 0 is not respected [C11_ordered_needs_room].
* Encoding ignores the return codes of writing the TL; with little tailroom it returns 0 without the TL [C16_counterexample],
  and for a value too long for the length field, or a tag too large, it returns 0 with a wrong length or without the TL
  [C106_too_long, C106_encoding_exactly]. Larger overflows abort the process (`msgb_put`) [C72_too_long].
  At the endpoint: a Session Modification Request of 2051 octets is sent as a datagram of 2047 octets that the receiver
  accepts, but in which the Apply Action of an Update FAR is missing [C74_counterexample].
  Such a message may as well abort the program in msgb_put(), or be refused if it ends with a name; which of it depends on
  single octets [C99_message, C99_all_happen].
* Ordered decoding returns -EBADMSG without calling err_cb() when a repeated IE is followed by an incomplete IE of the same
  tag (gtlv_dec_enc.c:411-413) [C101_counterexample]; a NULL table is not reported either, which for PFCP is every message type
  without a layout [C101_counterexample_null, C100_decoding, C102_encoding].
* The generator gtlv_gen.c does not notice that two IEs with different nested IEs have the same `decoded_type`: it writes the
  struct of the first for both, so that the table of the second can make the decoder write behind an array
  [C78_counterexample]. Names of more than 255 characters can get the wrong table [C77_long_names]. PFCP is not affected
  [C77_pfcp, C78_pfcp].
* A definition of a nested IE with a `spec_ref`, and no `spec_ref_prefix` in the configuration, passes NULL to printf("%s")
  (gtlv_gen.c:136-137) [C98_null_prefix].
* `membof()` of gtlv_dec_enc.c asserts that the first byte of a member is inside of the struct; a member (or flag, count, element) that
  begins inside and ends outside is written [C88_too_small]. Decoding to a struct that is not zeroed appends or refuses [C88_not_zero].
* A failed message encode leaves partial octets and Follow On set on the previous message [C29_counterexample].
* Node ID of type IPv4 with an IPv6 address encodes as 0.0.0.0 [C40_counterexample]; the conversion to a sockaddr depends on
  the previous contents of its output [C45_counterexample]; `osmo_pfcp_ip_addrs_get_str()` leaves the IPv6 output unset
  [C44_counterexample]; `osmo_pfcp_ie_f_seid_cmp()` is not an equivalence [C43_*].
* A message encoded before it is passed to tx keeps its stale Node ID [C59_encoded_before].
* After osmo_gtlv_load_next() has told the end of the window (`val == NULL`) the next call begins again with the first IE: a loop that misses the end never ends [C115_like_a_reader].
* `osmo_gtlvs_encode_to_str_buf()` writes nothing, not even a NUL, for a struct without IEs, so that the `_c` variant returns
  uninitialised memory [C68_counterexample_no_ie, C69_counterexample]. A UE IP address with CHV6 prints "chv4"
  (a stray comma in front is all that tells it from CHV4 [C71_flags]), and with NULL its length is too small [C68_counterexample_null]. The text of a message of unsupported type
  is cut off, but its end is counted [C68_counterexample_unsupported].
* Setting the sequence counter back can give two pending requests the same number [C54_needs_window].
* `osmo_gtlv_load_next()` adds the length to the value pointer before it checks it (gtlv.c:149-152): a length near SIZE_MAX, which a user-defined
  format can have (gtlv.h:48-50 allows it), wraps around and is accepted. In the format of tliv_test.c a three octet IE `01 00 xx` has 2^64 - 1 octets
  [C111_wrapped_length]; with eight octet lengths, reading does not end [C111_endless]. The formats of the library are not affected
  [C111_library_formats].
* TLs that grow with the length cannot be used with osmo_gtlv_put_update_tl() (and so not with osmo_gtlvs_encode()), unless store_tl() moves the
  data itself [C110_growing_tl]; then they can [C113_growing_tl, C113_round_trip].
* The message priority is put in the low nibble (TS 29.244 7.2.2.3: bits 8-5) [C80_counterexample]; the version is not checked on
  receipt, and the receive loop ignores Follow On [C81_*].

## 7. How the theorems were tested

`seeded/LOG.jsonl` has one line per wrong program: a definition of the model was edited in a scratch copy as a realistic
bug would, everything was rebuilt (`tools/mutrun.py` replaces each failing proof and goes on, so that all theorems that
depend on the broken fact are found), and it was checked that the theorems of the claims the edit falsifies are among those
that fail. Where they were not, the theorem was tightened.

## 8. Axioms of each theorem

Generated by `#print axioms` (`tools/design.py` writes this file).

@@AXIOMS@@
