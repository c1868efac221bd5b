how={
'C01':'Writer on an msgb with capacity, loader over the octets written; specification `wire`: concatenation of TLVs. ind on the list of TLVs, for T8L8 and T16L16.',
'C02':'Loader state with memory longer than the window allowed; outcome never `ub`, value inside the window. Case analysis, all states reached from a fresh load.',
'C03':'`osmo_gtlv_load_next()` repeated = partition of the window into TLVs; existence and uniqueness by ind on the remaining length.',
'C04':'`peekTag` against `loadNext` on the same state.',
'C05':'Search loop against "first TLV with that tag" on the list of TLVs; atomicity: state unchanged on -ENOENT.',
'C06':'Store functions of both configurations: error iff tag/length out of range or no tailroom; state unchanged on error.',
'C07':'Comparison function is a total order (NULL included), zero iff equal tag/instance.',
'C08':'Decoder loop refined to a fold over the list of TLVs, codecs arbitrary functions; iff description of success for tables with distinct tags.',
'C09':'Inserting unknown TLVs at any position does not change the result; ind on the list.',
'C10':'Permutations that keep the relative order of equal tags give the same struct.',
'C11':'More IEs than the member can hold: error; the number of stored values never exceeds the capacity.',
'C12':'cex (two). Partial: distinct tags and minimums of at most 1. Ordered loop refined to a recursive function on the list of TLVs.',
'C13':'cex. Partial: the values come from a subsequence of the IEs in table order; two mandatory IEs in the wrong order fail.',
'C14':'Composition of C16-style description of the encoder and C08-style description of the decoder; nested tables by closure: nesting lawful codings is lawful.',
'C15':'Same for the ordered decoder.',
'C16':'cex (little tailroom). Partial: with room, and whenever there is room for a TL afterwards.',
'C17':'Count above count_max: -ENOTSUP before reading that element.',
'C18':'All loops end: fuel given by the model (window length) suffices on every input; outcome not `diverge`.',
'C19':'Composition of header, tables and engine; struct well-formedness `MsgOf` stated separately in SpecMsg.',
'C20':'Header fields and octets by arithmetic; all flag combinations.',
'C21':'Every window shorter than what the flags announce gives an error.',
'C22':'cex (length field below header size). Partial: otherwise header length + window = returned length and decoding returns.',
'C23':'Encoder and decoder refuse message priority without SEID.',
'C24':'ind on the list of messages: encode all into one msgb, receive loop yields them in order.',
'C25':'Receive loop ends on every datagram: each turn consumes octets.',
'C26':'A message with bad IEs in the middle yields an error for itself only.',
'C27':'Types without a coding table: encode and decode return an error.',
'C28':'Length field = octets after the first four; larger messages -EMSGSIZE.',
'C29':'cex. Partial: octets of earlier messages other than the Follow On flag stay.',
'C30':'24-bit counter: range, never 0, all 2^24-1 values before a repetition. ind on the number of calls.',
'C31':'64-bit counter: never 0, distinct within 2^64-1 calls.',
'C32':'Allocation of a response and its encoding; down to the octets transmitted by the endpoint.',
'C33':'Classification of all message types; supported types are those with a table.',
'C34':'Accessors point to the member the message type defines, NULL otherwise; after decoding they give the IE received.',
'C35':'Per codec: `decode (encode v) = v` for well-formed values (SpecIes), all 19 codecs.',
'C36':'cex (Activate Predefined Rules). Partial: 18 decoders never `ub`; errors iff too short for the announced parts.',
'C37':'Values that decoders produce are well-formed, encode again, and decode to the same.',
'C38':'Outer Header Creation: flags agree with fields on success, error otherwise.',
'C39':'Flag octets of F-SEID, F-TEID, UE IP against presence of fields.',
'C40':'cex. Partial: address family as the type says.',
'C41':'DNS label coding: round trip, which names are rejected.',
'C42':'Bit get/set on arrays; in bounds iff the bit number is.',
'C43':'cex (two). Partial: order among F-SEIDs with IPv4, among those with IPv6 only, among those with one address each; iff for "equal" and for antisymmetry.',
'C44':'cex for get_str. set/get proved.',
'C45':'cex. Partial: output has the family already.',
'C46':'inv: at most N1+1 transmissions of a request, all with the same octets to the same remote address.',
'C47':'cex (close). inv: at most once; exactly once for requests neither pending nor dropped by close.',
'C48':'A matching response removes the request and calls back; a second copy finds nothing.',
'C49':'cex (two). Partial: kind and sequence number match.',
'C50':'A request with the sequence number of a kept response: that response is sent again, no callback.',
'C51':'Which callback a received message leads to, for every endpoint state; whole datagrams by ind on the bundle.',
'C52':'Heartbeat requests are answered before anything else; only those.',
'C53':'inv: requests only in the sent-requests queue, responses only in the other, ids distinct; timers never hit an assertion.',
'C54':'inv on draws of the counter with an explicit window assumption; C54_needs_window shows the need.',
'C55':'inv on deadlines; time of failure computed for timers that fire on time. cex for N1 = 0.',
'C56':'All heartbeat and association messages sent carry the recovery time stamp of the endpoint.',
'C57':'After invalidation no queued message refers to the context; log: no later callback with it.',
'C58':'cex (N1/T1 zero). inv: messages freed at most once, and exactly once when they leave the queue; the zero case characterised.',
'C59':'cex (already encoded). inv on the log of transmissions, composed with the round trip C19.',
'C60':'inv: every logged change is in the declared table; associate/timer return; response handling: undefined behaviour iff invalidated since tx.',
'C61':'cex (any response). inv: a response with the sequence number and accepting cause was received.',
'C62':'inv: pending association requests of a peer.',
'C63':'cex (close, T26 = 0). inv: waiting has a pending request, WAIT_RETRY has a timer.',
'C64':'cex (release ignored). inv: at most one notification, never false.',
'C65':'cex (invalidate). inv: use count = number of live messages with that context.',
'C66':'Transcribed tables against TS 29.244-style message definitions stated in SpecMsg.',
'C67':'inv on decoding: every struct the message decoder yields is well-formed, hence can be encoded.',
'C68':'Model of snprintf and OSMO_STRBUF_* on byte buffers (`Strs`); a strbuf after appending is shown to be the buffer after one snprintf of the concatenated text, for every buffer size, by ind over tables, values and bits. Texts in `SpecStrs`. Cex: nothing is written for a struct without IEs; length with NULL lacks commas; unsupported message types.',
'C69':'From C68 and the two-step allocation of OSMO_NAME_C_IMPL. Cex: a struct without IEs gives uninitialised memory.',
'C70':'Kernel evaluation on the transcribed tables (no duplicate names, none like an unknown number, no + in bit names), then ind: digits and joined texts are injective.',
'C71':'Case analysis on the first characters of the texts of two values with arbitrary flags and addresses; also in terms of what is printed to buffers.',
'C73':'cex (gap, twice). `inOrder` specifies the outcome for every TLV structure and table with distinct tags; equality by ind on fuel (C13_ordered_outcome).',
'C74':'cex (Session Modification Request of 2051 octets). An encoder that succeeds writes the same octets with more room (by composition over the IE encoders), so is exact; groups and tables by ind on the layout: exact unless fewer than 4 octets are left. Bound on the longest message by ind on the layout.',
'C72':'Totality of every endpoint and peer function under the invariant `Calm`, by ind over the sequence of operations and over the callbacks\' programs; C19 for sendable messages. One counterexample per proviso.',
'C75':'Each cursor operation is shown to read what `SpecReads` defines by positions (one lemma per operation), composed per IE kind by case analysis on the flags.',
'C76':'Invariant (no socket, empty queues, no traffic logged) through every endpoint and peer function; ind over callbacks\' programs and histories.',
'C77':'The generator over declarations instead of characters, and C\'s scoping of names (`Gen`); invariant between the list of seen names and the arrays declared, by ind on the definition and the list of messages; PFCP: kernel evaluation of the definitions plus the general theorem, for all types.',
'C78':'cex (two groups of the same decoded_type). Otherwise, invariant between seen types and structs, ind on the definition; PFCP meets the proviso (kernel evaluation).',
'C79':'Meaning of octets specified as a relation (`SpecMeaning`), mutual recursion over layouts. C08_unordered_iff for tables whose decoders are given a zero octet behind each IE, C75 and C41 for the IEs, mutual ind over layouts for groups; ind on the receive loop.',
'C80':'cex (priority). Otherwise corollary of C19 with the standard layout written out.',
'C81':'cex. Invariance of the meaning (C79) under the Follow On flag and the version.',
'C82':'inv over the network: logs grow, only arrivals receive; C51/C79/C19 for the content.',
'C83':'C82 from both sides, C50/C51 (what is matched), and inv: request numbers are distinct. That both conditions are needed: cex.',
'C84':'C61 and C83.',
'C85':'C82, C51, C50, C48.',
'C86':'Network with time (`SpecTimed`): induction over its histories. Of a request that was dispatched: it was sent at t, and answered at some time not before t (the logs of both ends, `AnsweredAt`). All transmissions of it are within N * v (C55), so a later arrival is before t + N * v + D, when the response is still kept (C55), and is answered from the cache (C50). Counterexamples for each condition, by running networks.',
'C87':'Small-step invariant (`Elapsed`): calls of resp_cb() are past, and a request without resp_cb() is freed, unanswered, only when T1 has passed since its last transmission. With the spacing of transmissions (`sentTimes_spaced`, T1 never less than v; timers may be late) and their number when it is given up (`Life.exact`), the bound follows. In networks: with C85. Examples show that the bound is exact, and that T1 must not be reduced meanwhile.',
'C88':'`Layout`: the functions again, now on memory with offsets (`obj`, `memb_ofs`, `memb_array_pitch`, flags, counts). Simulation: after each IE the memory contains the struct that `DecEnc` has (`IsStruct`), everything else is unchanged; ind over IEs and over nesting. Then C08-C18 hold of memory. cex for structs that are not zero, overlap or are too small.',
'C89':'The same relation read backwards: encoding at offsets is encoding of the contained struct; ind over table and nesting. Round trip from C14 and C88.',
'C90':'`GenLayout`: offsetof() etc. of the generated declarations with any ABI; `Lawful`: what C guarantees. ind over protocol definitions: the byte ranges of a table are those of its struct. PFCP: C77, C88, C89; the casts of all 19 function pairs agree with the member types (checked by the kernel, finite). Example: the layout on x86-64 (sizeof the union is 110600). cex without consistent types.',
'C91':'`Lifetime`: a pointer that may be NULL around the endpoint of C46-C87; the CP peers, which outlive it, keep their timers. ind over the history after freeing; exact condition (iff) from the invariant that a running FSM timer means WAIT_RETRY. cex: retry timer; use by the application.',
'C92':'`LayoutStr`: the function at the level of memory, as for C88/C89; ind over nested tables shows that it does what `Strs` does with slots; what memory contains for members that were not set: `asInC`. For libosmo-pfcp with C77 (tables), C90 (layout), C68 (text). cex: struct too small.',
'C93':'`fSeidCmp` on all pairs: cases on presence flags, comparison of addresses as a lexicographic order.',
'C94':'C35 one way; the other way: whatever a decoder returns is in range (as for C37). Names: induction over labels; where an empty label stands in the middle, the decoder stops there and the result is shorter than the name.',
'C95':'Invariant of a message that is held (in a queue, and used up the call stack): kept by every program of the application (structural induction over `App`), so that a program that closes the endpoint does not return. Elsewhere: as C72, with nothing held.',
'C96':'`Lifetime.lean`: reception with osmo_pfcp_endpoint_free() after rx_msg_cb(), and the loop over the rest of the datagram. Freeing is closing (C95) and then NULL; induction over the rest of the datagram.',
'C97':'Composition: C85 (what an arrival is) and the log of osmo_pfcp_endpoint_tx() for the answer, C83 (whose request it answers), C87 (a response in time is not lost). The condition about sequence numbers: a history of a network that is run by the kernel, C97_locked_out.',
'C98':'A reader for the subset of C that is needed (SpecGenText): words and symbols, brackets, declarations, initialisers. Each printf() of the model (GenText) is read to a piece, pieces compose; induction on the definition, in parallel with the functions of C77 and C78.',
'C99':'A specification that writes IEs to a list of IEs with a given room (SpecRoom: structFate). The state of osmo_gtlvs_encode() - the msgb and the place of the last TL - is the image of that list; step by step, by mutual induction on layouts and types.',
'C100':'The decoder once more with the calls of err_cb() (Report.lean), proved to return the same; the specification (SpecReport: Blames) says what the first fault is, without decoding. Decoding IE by IE is matched with the longest prefix without fault; mutual induction on layouts and types for what is inside grouped IEs.',
'C101':'Invariants of the decoding loops for any table: success leaves no report, an error the last one. Ordered decoding: a loader invariant says where the IE that was loaded last is, for the one silent return (gtlv_dec_enc.c:411-413).',
'C102':'As for decoding: the encoder with its reports returns the same; mutual induction on layouts and types gives the specification Unencoded; each value encoder is shown to return no error but -EINVAL, and that only for the listed values.',
'C103':'C97 (the transaction completes) with the invariant (induction over histories) that a CP peer whose resp_cb() got a response with Cause "Request accepted" has become associated, and that "associated" is never left (C61_exactly, C61_stays).',
'C104':'Specification SpecOrdAll.lean (inOrderR: recursion over the table); the two loops are related to it by induction (OrdAll.lean), and every octet string is IEs followed by nothing or by octets that are no IE (C104_all_octets).',
'C105':'Specification SpecAnyOrd.lean (home: the entry for the n-th IE of a tag); invariant over the loop: the members for a tag are filled in table order (Filled, AnyOrd.lean). C105_sound: the hypothesis on the tables holds for nested tables, to any depth, if it holds for the decoders of the values.',
'C106':'Specification SpecWrite.lean: a page of IEs with tag, length field and octets, the newest first, instead of the offsets and in-place updates of struct osmo_gtlv_put. Induction over values and table relates the two (WriteLemmas.lean). C106_plain, C106_nested, C106_ies: encoders of all IE types append only, and so do tables of such, to any depth.',
'C107':'From the exact meaning of octets (C79) and the exact domain of each IE (C94), by mutual induction over types and layouts (SurviveLemmas.lean): what has been decoded is encoded to its octets; IEs can be told apart; the octets of a value mean this value iff the value is carried.',
'C108':'A relation between endpoint states (equal but for the logged message contents and Heartbeat Response destinations) that every function of the endpoint preserves (AlikeLemmas.lean), then induction over histories.',
'C109':'An invariant about neighbouring events of the log (SpecMoves.lean), kept by every function of the endpoint (EndpointMoves.lean); the number of attempts of a CP peer is kept by all calls that do not concern it (EndpointStarts.lean).',
'C110':'The contracts of load_tl() and store_tl() as predicates on an abstract `Cfg` (SpecFormat.lean); the round trip by induction over the IEs (FormatLemmas.lean). The two formats of the library and the three of its test programs are proved to keep the contracts.',
'C111':'A second model of the loader with addresses modulo 2^64 (Addr.lean); proved equal to the first where no sum wraps around, exact condition for acceptance, counterexamples where it does.',
'C112':'The lemmas about decoding and encoding again, with the contracts of SpecFormat.lean instead of the two formats of the library (FormatLemmas.lean).',
'C113':'A model of the writer and encoder in which store_tl() maps a msgb to a msgb (Move.lean), with its contract as a predicate `StoresMoving`; by induction over pieces, IEs and values; equal to the first model for formats that move nothing. A BER-like format is proved to keep the contract.',
'C114':'Bounds on the distance of transmissions by induction over the log (twin of C87); distinct identities of queue entries for the size; number of retransmissions left as a measure that each expired timer lowers, for progress (PropsRest.lean).',
'C115':'Simulation between the loader and a list reader (invariant: what is left of the window is the IEs still to come); an invariant for loaders in front of an IE that cannot be read (PropsCursor.lean).',
'C116':'Invariant of every step: the message of each transmission whose response goes to a CP peer (EndpointOwn.lean); its octets by the encoding theorem; C84 for networks (PropsOwn.lean).',
'C117':'Induction over histories with what one reception adds (Reached.rxEvents); counting of transmissions by message (PropsTrace.lean).',
'C118':'What one delivery adds to the log when applications are silent (EndpointQuiet.lean), the type octet of encoded messages, and induction over deliveries (PropsEcho.lean).',
'C119':'The state after one message is a function of the state before and the message (afterMessage), up to the log; induction over the messages of the datagram.',
'C120':'From C83 (who answered) and C86 (at most once), for the request that the response was passed for.',
'C121':'A simulation: every function of the endpoint commutes with renumbering messages and with replacing the log (EndpointRen), and noise only takes numbers and adds to the log (C119); by induction on the two histories. The converse: handling such a datagram cannot fail in a reachable state.',
'C122':'The receive loop takes one message after the other (C26); induction on the list of messages.',
'C123':'Every function of the endpoint commutes with shifting the clock, the timers and the times in the log (EndpointShift); induction on the history.',
'C124':'Handling the timer of one message is one update of the entry of that message, the use counts of its context and its CP peer, and such updates commute; induction on the permutation.',
'C125':'Every function of the endpoint commutes with renumbering messages and replacing the log (EndpointRen, as for C121); induction on the history. A state with empty queues is a renumbered new endpoint.',
}
import json
json.dump(how,open('/verif/tools/design_how.json','w'),indent=0)
