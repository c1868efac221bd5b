/-
Model of src/libosmo-pfcp/pfcp_endpoint.c: transmission, retransmission queues, timers, reception.

The endpoint is a state (`Ep`) with a log of what can be observed from outside: calls of the API,
datagrams handed to the socket, callbacks, messages freed.  What the application does inside a
callback is an arbitrary finite program of API calls (`App`), so that a statement about all programs
is one about all applications, including re-entrant ones.  Sends may fail at any time.  Callbacks
do not modify the messages that the library passes to them, other than `m->ctx` in
set_msg_ctx_cb(), and do not run the select loop.
-/
import Verif.Peer

namespace Verif

/-- Why octets are handed to the socket: osmo_pfcp_endpoint_tx(), a direct osmo_pfcp_endpoint_tx_data()
by the application, osmo_pfcp_endpoint_tx_heartbeat_req(), the automatic answer to the received
Heartbeat Request number `k`, a retransmission by timer, or a cached response re-sent for the received
request number `k`. -/
inductive Why where
  | tx
  | direct
  | heartbeatReq
  | heartbeatReply (k : Nat)
  | retrans
  | cachedReply (k : Nat)
  deriving DecidableEq, Repr

/-- What is observable.  Messages are identified by a number (the identity of the C struct); all
messages, sent and received ones, are numbered in the order in which the endpoint gets them. -/
inductive Event where
  /-- osmo_pfcp_endpoint_tx() is called for the message (as it will be sent), with N1 and T1 in force. -/
  | passed (id : Nat) (n1 t1 : Nat) (m : PMsg)
  /-- osmo_pfcp_endpoint_tx() returns: 0, or a negative code. -/
  | returned (id : Nat) (rc : Option Errno)
  /-- sendto() is called on an open socket; it takes all of the octets, or it fails. -/
  | send (why : Why) (id : Nat) (remote : Sockaddr) (octets : List UInt8) (ok : Bool) (time : Nat)
  /-- m->ctx.resp_cb(m, resp, errmsg) of message `id`: with the received response, or NULL. -/
  | respCb (id : Nat) (resp : Option Nat) (time : Nat)
  /-- A message is received: header and IEs are decoded. -/
  | received (k : Nat) (m : PMsg)
  /-- cfg.set_msg_ctx_cb(ep, m, req) -/
  | setCtx (k : Nat) (req : Option Nat)
  /-- cfg.rx_msg_cb(ep, m, req) -/
  | dispatch (k : Nat) (req : Option Nat)
  /-- A message that was passed to osmo_pfcp_endpoint_tx() is deallocated. -/
  | freed (id : Nat)
  /-- osmo_pfcp_endpoint_close() removes the message. -/
  | dropped (id : Nat)
  /-- From now on these timer definitions are in force. -/
  | config (n1 t1 keepResp : Nat)
  /-- osmo_pfcp_endpoint_invalidate_ctx() -/
  | invalidated (fi : Nat)
  /-- Something about the CP peer `fi`. -/
  | peer (fi : Nat) (e : PeerEvent)
  /-- From now on this is T26 (in ms). -/
  | configT26 (t26 : Nat)

/-- `struct osmo_pfcp_queue_entry` (pfcp_endpoint.c:60-72).  `timer`: when `t1` expires, `none` if it is
not running.  `draw` and `epoch` are for the proofs only: the how manieth sequence number it has, and how
often the counter had been set before. -/
structure QEntry where
  id : Nat
  m : PMsg
  n1 : Nat
  timer : Option Nat
  draw : Nat
  epoch : Nat

/-- `struct osmo_pfcp_endpoint_cfg` (pfcp_endpoint.h:56-87), as far as it matters: whether there is a
set_msg_ctx_cb and an rx_msg_cb, and the local Node ID.  The timer values are in `Ep`. -/
structure EpCfg where
  hasSetCtx : Bool := true
  hasRx : Bool := true
  nodeId : NodeId

/-- `struct osmo_pfcp_endpoint` (pfcp_endpoint.c:35-57), the timer definitions that it uses (in ms; they
can be reconfigured at any time), the clock (in ms), the number of messages seen so far, and the log,
latest event first.  `busy`: messages that functions up the call stack still use while a callback is
running.  `draws`, `resets` are for the proofs only: sequence numbers taken, and calls of
osmo_pfcp_endpoint_set_seq_nr_state().
`peers`: the CP peers that use this endpoint; the API has no function that deallocates one.  `t26`: how long
(in ms) they wait before they try to associate again; 15 seconds unless configured differently.
`use`: use counts, by identity and token; that of the CP peer `fi` has the identity `fi`. -/
structure Ep where
  cfg : EpCfg
  n1 : Nat
  t1 : Nat
  keepResp : Nat
  sock : Bool := false
  rts : Nat
  seq : UInt32 := 0
  reqs : List QEntry := []
  resps : List QEntry := []
  now : Nat
  nextId : Nat := 0
  busy : List Nat := []
  draws : Nat := 0
  resets : Nat := 0
  log : List Event := []
  peers : List Peer := []
  t26 : Nat := 15000
  use : Nat × Nat → Nat := fun _ => 0

/-- `osmo_pfcp_endpoint_create()` (pfcp_endpoint.c:134-160) when time() is `unixTime`: conversion to
uint32_t, and addition of the offset to NTP era 0, modulo 2^32. -/
def Ep.create (cfg : EpCfg) (n1 t1 keepResp unixTime now : Nat) : Ep :=
  { cfg, n1, t1, keepResp, now, rts := (unixTime % 2 ^ 32 + 2208988800) % 2 ^ 32, log := [.config n1 t1 keepResp] }

/-- Log an event. -/
def Ep.note (ep : Ep) (e : Event) : Ep := { ep with log := e :: ep.log }

/-- The application: a sequence of API calls.
* `tx m io onFail`: osmo_pfcp_endpoint_tx() for a message; `io`: whether sendto() succeeds; `onFail`:
  what m->ctx.resp_cb() does if it is called immediately;
* `txData m io`: osmo_pfcp_endpoint_tx_data(); the caller keeps the message;
* `heartbeat`: osmo_pfcp_endpoint_tx_heartbeat_req();
* `invalidate`, `setSeq`, `close`, `bind`: osmo_pfcp_endpoint_invalidate_ctx(), _set_seq_nr_state(),
  _close(), _bind() (`ok`: whether the socket can be opened);
* `setTimers`, `setT26`: the user changes the timer definitions;
* `newPeer`, `setAssocCb`, `associate`: osmo_pfcp_cp_peer_alloc() (whose FSM instance gets the identity `fi`),
  osmo_pfcp_cp_peer_set_associated_cb(), osmo_pfcp_cp_peer_associate().

A message that is passed to osmo_pfcp_endpoint_tx() with a use count in its context has taken it:
osmo_pfcp_cp_peer_new_req(), osmo_pfcp_cp_peer_new_resp() and osmo_pfcp_cp_peer_set_msg_ctx() have done so for
that of a CP peer.  Simplification: this happens in the moment the message is passed.  Messages that the
application allocates and frees without passing them are not modelled. -/
inductive App where
  | done
  | tx (m : PMsg) (io : Bool) (onFail : App) (rest : App)
  | txData (m : PMsg) (io : Bool) (rest : App)
  | heartbeat (remote : Sockaddr) (io : Bool) (rest : App)
  | invalidate (fi : Nat) (rest : App)
  | setSeq (s : UInt32) (rest : App)
  | setTimers (n1 t1 keepResp : Nat) (rest : App)
  | close (rest : App)
  | bind (ok : Bool) (rest : App)
  | setT26 (t26 : Nat) (rest : App)
  | newPeer (fi : Nat) (remote : Sockaddr) (rest : App)
  | setAssocCb (fi : Nat) (cb : Bool) (rest : App)
  | associate (fi : Nat) (io : Bool) (rest : App)

/-! ### CP peers -/

/-- The CP peer whose FSM instance is `fi`. -/
def Ep.peer? (ep : Ep) (fi : Nat) : Option Peer := ep.peers.find? fun p => p.fi = fi

/-- `osmo_use_count_get_put(use_count, token, 1)` (libosmocore, trusted) on the use counts of a message.
pfcp_cp_peer_use_cb() (pfcp_cp_peer.c:74-92) has no effect then. -/
def Ep.takeUses (ep : Ep) (us : List (Nat × Nat)) : Ep := { ep with use := fun u => ep.use u + us.count u }

/-- `OSMO_ASSERT(osmo_use_count_get_put(use_count, token, -1) == 0)` in `osmo_pfcp_msg_destructor()`
(pfcp_msg.c:455-470): pfcp_cp_peer_use_cb() refuses a negative count; when the total count becomes 0 it
dispatches PFCP_CP_PEER_EV_USE_COUNT_ZERO, which has an effect only in WAIT_USE_COUNT (pfcp_cp_peer.c:302-318),
a state that is never entered.  Simplification: use counts of the application are alike, their callback does
not use the endpoint. -/
def Ep.releaseUses (ep : Ep) : List (Nat × Nat) → Res Ep
  | [] => .ok ep
  | u :: us =>
    if ep.use u = 0 then .abort
    else { ep with use := fun x => if x = u then ep.use x - 1 else ep.use x }.releaseUses us

/-- `osmo_pfcp_cp_peer_fsm_state_chg()` (pfcp_cp_peer.c:68-72) for a CP peer: -EPERM and no effect if the state
table does not permit it. -/
def Ep.peerChg (ep : Ep) (fi : Nat) (new : PState) : Ep :=
  match ep.peer? fi with
  | none => ep
  | some p =>
    if p.state.permits new then
      { ep with peers := setPeer ep.peers (p.enter new ep.now ep.t26) }.note (.peer fi (.state new))
    else ep

/-- `on_pfcp_assoc_resp()` (pfcp_cp_peer.c:206-235) for a request with context `ctx`; `resp = none` is NULL;
`cb` is assoc_cb().  PFCP_CP_PEER_EV_RX_ASSOC_SETUP_RESP is handled in WAIT_ASSOC_SETUP_RESP only
(pfcp_cp_peer.c:237-248); then the onenter of ASSOCIATED (pfcp_cp_peer.c:250-257) runs.  If
osmo_pfcp_endpoint_invalidate_ctx() has removed the FSM instance from the request, a NULL pointer is
accessed. -/
def Ep.assocResp (ep : Ep) (ctx : Ctx) (resp : Option PMsg) (cb : Ep → Res Ep) : Res Ep :=
  match ctx.peerFi with
  | none => .ub
  | some fi =>
    match ep.peer? fi with
    | none => .ub
    | some p =>
      match resp with
      | none => .ok (ep.peerChg fi .waitRetry)
      | some m =>
        if ¬ m.accepted then .ok (ep.peerChg fi .waitRetry)
        else if p.state ≠ .waitAssoc then .ok ep
        else
          let ep := ep.peerChg fi .associated
          if p.hasCb then cb (ep.note (.peer fi (.assocCb true))) else .ok ep

/-! ### Transmission -/

/-- OSMO_PFCP_MSGB_ALLOC_SIZE (pfcp_msg.h) -/
def allocSize : Nat := 2048

/-- The encoded message (pfcp_endpoint.c:245-257): cached or encoded now. -/
def PMsg.encode (m : PMsg) : Out (List UInt8) :=
  match m.encoded with
  | some o => .ok o
  | none =>
    match msgEncode { b := ⟨allocSize, []⟩ } m.h m.ies with
    | .ok buf => .ok buf.b.data
    | .err e _ => .err e []
    | .abort => .abort
    | .ub => .ub
    | .diverge => .diverge

/-- `osmo_pfcp_endpoint_tx_data_no_logging()` (pfcp_endpoint.c:241-266): the endpoint, the message with
its encoded form, and the return code. -/
def Ep.sendMsg (ep : Ep) (why : Why) (id : Nat) (m : PMsg) (io : Bool) : Res (Ep × PMsg × Option Errno) :=
  match m.encode with
  | .ok o =>
    if ep.sock then
      .ok (ep.note (.send why id m.remote o io ep.now), { m with encoded := some o }, if io then none else some .EIO)
    else .ok (ep, { m with encoded := some o }, some .EIO)
  | .err e _ => .ok (ep, m, some e)
  | .abort => .abort
  | .ub => .ub
  | .diverge => .diverge

/-- `*osmo_pfcp_msg_node_id(m) = ep->cfg.local_node_id` (pfcp_endpoint.c:341-343). -/
def PMsg.withNodeId (m : PMsg) (n : NodeId) : PMsg :=
  match m.nodeIdAt with
  | some i => { m with ies := m.ies.set i [.leaf (.nodeId n)] }
  | none => m

/-- Run something while a message is in use. -/
def Ep.using (ep : Ep) (id : Nat) (f : Ep → Res Ep) : Res Ep :=
  (f { ep with busy := id :: ep.busy }).bind fun ep' => .ok { ep' with busy := ep.busy }

/-- Whether the message has a response callback. -/
def PMsg.hasCb (m : PMsg) : Bool := m.ctx.respCb.isSome

/-- `m->ctx.resp_cb(m, NULL, ..)` for requests that have one (pfcp_endpoint.c:347-348, 296-297). -/
def Ep.failCb (ep : Ep) (id : Nat) (m : PMsg) (cb : Ep → Res Ep) : Res Ep :=
  if ¬ m.isResponse ∧ m.hasCb then
    (ep.note (.respCb id none ep.now)).using id cb
  else .ok ep

/-- `osmo_pfcp_endpoint_retrans_queue_add()` (pfcp_endpoint.c:283-323). -/
def Ep.queueAdd (ep : Ep) (id : Nat) (m : PMsg) (cb : Ep → Res Ep) : Res Ep :=
  if ep.n1 = 0 ∨ ep.t1 = 0 then ep.failCb id m cb
  else if m.isResponse then
    .ok { ep with
      resps := ep.resps ++
        [{ id, m, n1 := 0, timer := some (ep.now + ep.keepResp), draw := ep.draws, epoch := ep.resets }] }
  else
    .ok { ep with
      reqs := { id, m, n1 := ep.n1, timer := some (ep.now + ep.t1), draw := ep.draws, epoch := ep.resets } :: ep.reqs }

/-- The sequence number of a request (pfcp_endpoint.c:339-340, 278). -/
def Ep.draw (ep : Ep) (m : PMsg) : Ep × PMsg :=
  ({ ep with seq := nextSeqNr ep.seq, draws := ep.draws + 1 },
   { m with h := { m.h with seq := (nextSeqNr ep.seq).toNat } })

/-- `osmo_pfcp_endpoint_tx()` (pfcp_endpoint.c:335-354); `cb` is m->ctx.resp_cb(). -/
def Ep.tx (ep : Ep) (m : PMsg) (io : Bool) (cb : Ep → Res Ep) : Res Ep :=
  let id := ep.nextId
  let ep := { ep with nextId := id + 1 }
  let (ep, m) := if m.isResponse then (ep, m) else ep.draw m
  let m := m.withNodeId ep.cfg.nodeId
  let ep := ep.note (.passed id ep.n1 ep.t1 m)
  (ep.sendMsg .tx id m io).bind fun (ep, m, rc) =>
  match rc with
  | some e =>
    (ep.failCb id m cb).bind fun ep =>
    (ep.releaseUses m.ctx.uses).bind fun ep =>
    .ok ((ep.note (.freed id)).note (.returned id (some e)))
  | none =>
    (ep.queueAdd id m cb).bind fun ep => .ok (ep.note (.returned id none))

/-- `osmo_pfcp_endpoint_tx_data()` (pfcp_endpoint.c:268-272). -/
def Ep.txDirect (ep : Ep) (m : PMsg) (io : Bool) (why : Why := .direct) : Res Ep :=
  ({ ep with nextId := ep.nextId + 1 }.sendMsg why ep.nextId m io).bind fun (ep, _, _) => .ok ep

/-- A Heartbeat Request (pfcp_endpoint.c:276-278), before it gets its sequence number. -/
def heartbeatReq (remote : Sockaddr) (rts : Nat) : PMsg :=
  { remote, isResponse := false, h := { version := 1, type := 1 }, ies := [[.leaf (.u32 rts)]] }

/-- `osmo_pfcp_endpoint_tx_heartbeat_req()` (pfcp_endpoint.c:274-280): not queued. -/
def Ep.txHeartbeat (ep : Ep) (remote : Sockaddr) (io : Bool) : Res Ep :=
  let (ep, m) := ep.draw (heartbeatReq remote ep.rts)
  ep.txDirect m io .heartbeatReq

/-! ### Other functions -/

/-- The endpoint after osmo_pfcp_endpoint_close() (pfcp_endpoint.c:489-502): all queue entries are freed,
with their messages. -/
def Ep.closed (ep : Ep) : Ep :=
  { ep with
    reqs := [], resps := [], sock := false
    log := ((ep.reqs ++ ep.resps).map fun e => [Event.dropped e.id, Event.freed e.id]).flatten.reverse ++ ep.log }

/-- `osmo_pfcp_endpoint_close()` (pfcp_endpoint.c:489-502).  If a function up the call stack still uses one of
the messages, it will access freed memory. -/
def Ep.close (ep : Ep) : Res Ep :=
  if (ep.reqs ++ ep.resps).any fun e => ep.busy.contains e.id then .ub
  else (ep.releaseUses ((ep.reqs ++ ep.resps).map fun e => e.m.ctx.uses).flatten).bind fun ep => .ok ep.closed

/-- `osmo_pfcp_endpoint_bind()` (pfcp_endpoint.c:469-487). -/
def Ep.bind (ep : Ep) (ok : Bool) : Res Ep :=
  ep.close.bind fun ep => .ok { ep with sock := ep.cfg.hasRx && ok }

/-- The loops of `osmo_pfcp_endpoint_invalidate_ctx()` (pfcp_endpoint.c:514-521). -/
def Ep.dropCtx (ep : Ep) (fi : Nat) : Ep :=
  { ep with reqs := ep.reqs.map fun e => { e with m := msgInvalidateCtx e.m fi }
            resps := ep.resps.map fun e => { e with m := msgInvalidateCtx e.m fi } }

/-- `osmo_pfcp_endpoint_invalidate_ctx()` (pfcp_endpoint.c:514-521). -/
def Ep.invalidate (ep : Ep) (fi : Nat) : Ep := (ep.dropCtx fi).note (.invalidated fi)

/-- `osmo_pfcp_endpoint_retrans_queue_is_busy()` (pfcp_endpoint.c:552-555). -/
def Ep.isBusy (ep : Ep) : Bool := !(ep.reqs.isEmpty && ep.resps.isEmpty)

/-- `osmo_pfcp_cp_peer_alloc()` (pfcp_cp_peer.c:97-121).  An FSM instance that exists does not get another
peer. -/
def Ep.newPeer (ep : Ep) (fi : Nat) (remote : Sockaddr) : Ep :=
  match ep.peer? fi with
  | some _ => ep
  | none => { ep with peers := { fi, remote } :: ep.peers }

/-- `osmo_pfcp_cp_peer_set_associated_cb()` (pfcp_cp_peer.c:142-146). -/
def Ep.setAssocCb (ep : Ep) (fi : Nat) (cb : Bool) : Ep :=
  match ep.peer? fi with
  | none => ep
  | some p => { ep with peers := setPeer ep.peers { p with hasCb := cb } }.note (.peer fi (.cbSet cb))

/-- Whether the osmo_pfcp_endpoint_tx() that returned last has failed. -/
def txFailed : List Event → Bool
  | .returned _ (some _) :: _ => true
  | _ => false

/-- Change to WAIT_ASSOC_SETUP_RESP, with its onenter: pfcp_cp_peer_wait_assoc_setup_resp_onenter()
(pfcp_cp_peer.c:183-204). -/
def Ep.assocStart (ep : Ep) (fi : Nat) (p : Peer) (io : Bool) : Res Ep :=
  if ¬ p.state.permits .waitAssoc then .ok ep
  else
    let ep := ep.peerChg fi .waitAssoc
    let m := assocReq p ep.rts
    ((ep.takeUses m.ctx.uses).tx m io fun ep => ep.assocResp m.ctx none .ok).bind fun ep =>
    .ok (if txFailed ep.log then ep.peerChg fi .waitRetry else ep)

/-- `osmo_pfcp_cp_peer_associate()` (pfcp_cp_peer.c:123-140). -/
def Ep.associate (ep : Ep) (fi : Nat) (io : Bool) : Res Ep :=
  match ep.peer? fi with
  | none => .ok ep
  | some p => if p.state = .disabled ∨ p.state = .waitRetry then ep.assocStart fi p io else .ok ep

/-- `pfcp_cp_peer_fsm_timer_cb()` (pfcp_cp_peer.c:167-178), if the timer of the CP peer has expired.  In another
state than WAIT_RETRY, the FSM instance would be terminated and the peer freed. -/
def Ep.peerTimer (ep : Ep) (fi : Nat) (io : Bool) : Res Ep :=
  match ep.peer? fi with
  | none => .ok ep
  | some p =>
    if ¬ p.timer.any (fun d => d ≤ ep.now) then .ok ep
    else
      let p := { p with timer := none }
      let ep := { ep with peers := setPeer ep.peers p }
      if p.state = .waitRetry then ep.assocStart fi p io
      else .ok { ep with peers := ep.peers.filter fun p => p.fi ≠ fi }

/-- The application calls API functions.  on_pfcp_assoc_resp() is a static function of the library, which the
application cannot use as its own resp_cb(). -/
def App.run : App → Ep → Res Ep
  | .done, ep => .ok ep
  | .tx m io onFail rest, ep =>
    if m.ctx.respCb = some Cb.assoc then .ub
    else ((ep.takeUses m.ctx.uses).tx m io onFail.run).bind rest.run
  | .txData m io rest, ep => (ep.txDirect m io).bind rest.run
  | .heartbeat remote io rest, ep => (ep.txHeartbeat remote io).bind rest.run
  | .invalidate fi rest, ep => rest.run (ep.invalidate fi)
  | .setSeq s rest, ep => rest.run { ep with seq := s, resets := ep.resets + 1 }
  | .setTimers n1 t1 keepResp rest, ep => rest.run ({ ep with n1, t1, keepResp }.note (.config n1 t1 keepResp))
  | .close rest, ep => ep.close.bind rest.run
  | .bind ok rest, ep => (ep.bind ok).bind rest.run
  | .setT26 t26 rest, ep => rest.run ({ ep with t26 }.note (.configT26 t26))
  | .newPeer fi remote rest, ep => rest.run (ep.newPeer fi remote)
  | .setAssocCb fi cb rest, ep => rest.run (ep.setAssocCb fi cb)
  | .associate fi io rest, ep => (ep.associate fi io).bind rest.run

/-! ### Timers -/

/-- Replace the queue entry of a message. -/
def setEntry (q : List QEntry) (e : QEntry) : List QEntry := q.map fun x => if x.id = e.id then e else x

/-- `osmo_pfcp_queue_del()` (pfcp_endpoint.c:90-101): the entry leaves its queue; its message is freed
with it (pfcp_endpoint.c:306). -/
def Ep.queueDel (ep : Ep) (id : Nat) : Res Ep :=
  (ep.releaseUses (((ep.reqs ++ ep.resps).filter fun e => e.id = id).map fun e => e.m.ctx.uses).flatten).bind fun ep =>
  .ok { ep with reqs := ep.reqs.filter fun e => e.id ≠ id
                resps := ep.resps.filter fun e => e.id ≠ id
                log := .freed id :: ep.log }

/-- `pfcp_queue_retrans()` (pfcp_endpoint.c:180-203): whether to keep the entry. -/
def Ep.retrans (ep : Ep) (e : QEntry) (io : Bool) : Res (Ep × Bool) :=
  if e.n1 = 0 then .ok (ep, false)
  else
    (ep.sendMsg .retrans e.id e.m io).bind fun (ep, m, rc) =>
    match rc with
    | some _ => .ok ({ ep with reqs := setEntry ep.reqs { e with m, n1 := e.n1 - 1 } }, false)
    | none =>
      .ok ({ ep with reqs := setEntry ep.reqs { e with m, n1 := e.n1 - 1, timer := some (ep.now + ep.t1) } }, true)

/-- Whether the timer of an entry has expired. -/
def QEntry.expired (e : QEntry) (now : Nat) : Bool := e.timer.any fun d => d ≤ now

/-- `pfcp_queue_sent_req_timer_cb()` (pfcp_endpoint.c:206-225), for the entry of a message, if there is
one with an expired timer; `cb` is m->ctx.resp_cb() if that is a function of the application. -/
def Ep.reqTimer (ep : Ep) (id : Nat) (io : Bool) (cb : Ep → Res Ep) : Res Ep :=
  match ep.reqs.find? fun e => e.id = id with
  | none => .ok ep
  | some e =>
    if ¬ e.expired ep.now then .ok ep
    else if e.m.isResponse then .abort
    else
      let e := { e with timer := none }
      ({ ep with reqs := setEntry ep.reqs e }.retrans e io).bind fun (ep, keep) =>
      if keep then .ok ep
      else
        (if e.m.hasCb then
          (ep.note (.respCb id none ep.now)).using id fun ep =>
            if e.m.ctx.respCb = some Cb.assoc then ep.assocResp e.m.ctx none .ok else cb ep
        else .ok ep).bind fun ep =>
        if ep.reqs.any fun e => e.id = id then ep.queueDel id else .ub

/-- `pfcp_queue_sent_resp_timer_cb()` (pfcp_endpoint.c:228-238). -/
def Ep.respTimer (ep : Ep) (id : Nat) : Res Ep :=
  match ep.resps.find? fun e => e.id = id with
  | none => .ok ep
  | some e =>
    if ¬ e.expired ep.now then .ok ep
    else if ¬ e.m.isResponse then .abort
    else ep.queueDel id

/-! ### Reception -/

/-- `osmo_pfcp_queue_find()` (pfcp_endpoint.c:75-87). -/
def queueFind (q : List QEntry) (rx : PMsg) : Option QEntry :=
  q.find? fun e => e.m.isResponse != rx.isResponse && e.m.h.seq == rx.h.seq

/-- What happens while one received message is handled: whether sends succeed, what the application
does in set_msg_ctx_cb(), resp_cb() (with return code) and rx_msg_cb().  `peer`: the CP peer for which
set_msg_ctx_cb() calls osmo_pfcp_cp_peer_set_msg_ctx(), if it does; `session`: the use count of a session that it
takes for the message, if it does.  If resp_cb() is on_pfcp_assoc_resp(),
`onResp` is what assoc_cb() does. -/
structure React where
  io : Bool := true
  peer : Option Nat := none
  session : Option (Nat × Nat) := none
  onCtx : App := .done
  rc : Int := 0
  onResp : App := .done
  onRx : App := .done

/-- The use counts in the context of the received message, after set_msg_ctx_cb() (pfcp_cp_peer.c:407-417). -/
def Ep.rxUses (ep : Ep) (r : React) : List (Nat × Nat) :=
  if ep.cfg.hasSetCtx then r.session.toList ++ (r.peer.map fun fi => (fi, tokenRx)).toList else []

/-- `if (ep->cfg.set_msg_ctx_cb) ep->cfg.set_msg_ctx_cb(ep, m, req)` -/
def Ep.setCtx (ep : Ep) (k : Nat) (req : Option Nat) (r : React) : Res Ep :=
  if ep.cfg.hasSetCtx then r.onCtx.run ((ep.note (.setCtx k req)).takeUses (ep.rxUses r)) else .ok ep

/-- A Heartbeat Response (pfcp_endpoint.c:364-366). -/
def heartbeatResp (req : PMsg) (rts : Nat) : PMsg :=
  { remote := req.remote, isResponse := true, h := { version := 1, type := 2, seq := req.h.seq }
    ies := [[.leaf (.u32 rts)]] }

/-- Directly answer a Heartbeat Request (pfcp_endpoint.c:362-368). -/
def Ep.heartbeatReply (ep : Ep) (k : Nat) (m : PMsg) (io : Bool) : Res Ep :=
  if m.h.type = 1 then
    ({ ep with nextId := ep.nextId + 1 }.sendMsg (.heartbeatReply k) ep.nextId (heartbeatResp m ep.rts) io).bind
      fun (ep, _, _) => .ok ep
  else .ok ep

/-- The request was answered before (pfcp_endpoint.c:375-391). -/
def Ep.handleDuplicate (ep : Ep) (k : Nat) (prev : QEntry) (r : React) : Res Ep :=
  (ep.using prev.id fun ep => ep.setCtx k none r).bind fun ep =>
  match ep.resps.find? fun e => e.id = prev.id with
  | none => .ub
  | some e =>
    (ep.sendMsg (.cachedReply k) e.id e.m r.io).bind fun (ep, m, _) =>
    .ok { ep with resps := setEntry ep.resps { e with m } }

/-- `dispatch_rx` (pfcp_endpoint.c:415-416) -/
def Ep.dispatch (ep : Ep) (k : Nat) (req : Option Nat) (r : React) : Res Ep :=
  r.onRx.run (ep.note (.dispatch k req))

/-- `prev_msg->ctx.resp_cb(prev_msg, m, NULL)` (pfcp_endpoint.c:404), which is a function of the application
or on_pfcp_assoc_resp(); the return code. -/
def Ep.respCall (ep : Ep) (m : PMsg) (prev : QEntry) (r : React) : Res (Ep × Int) :=
  if prev.m.ctx.respCb = some Cb.assoc then
    match ep.reqs.find? fun e => e.id = prev.id with
    | none => .ub
    | some e => (ep.assocResp e.m.ctx (some m) r.onResp.run).bind fun ep => .ok (ep, 0)
  else (r.onResp.run ep).bind fun ep => .ok (ep, r.rc)

/-- A response to an earlier request (pfcp_endpoint.c:393-418). -/
def Ep.handleResponse (ep : Ep) (k : Nat) (m : PMsg) (prev : QEntry) (r : React) : Res Ep :=
  (ep.using prev.id fun ep =>
    (ep.setCtx k (some prev.id) r).bind fun ep =>
    if prev.m.hasCb then
      ((ep.note (.respCb prev.id (some k) ep.now)).respCall m prev r).bind fun (ep, rc) =>
      if rc ≠ 1 then .ok ep else ep.dispatch k (some prev.id) r
    else ep.dispatch k (some prev.id) r).bind fun ep =>
  if ep.reqs.any fun e => e.id = prev.id then ep.queueDel prev.id else .ub

/-- What `osmo_pfcp_endpoint_handle_rx()` does after Heartbeats (pfcp_endpoint.c:370-420). -/
def Ep.handleMsg (ep : Ep) (k : Nat) (m : PMsg) (r : React) : Res Ep :=
  match queueFind (if m.isResponse then ep.reqs else ep.resps) m with
  | some prev => if m.isResponse then ep.handleResponse k m prev r else ep.handleDuplicate k prev r
  | none => (ep.setCtx k none r).bind fun ep => ep.dispatch k none r

/-- `osmo_pfcp_endpoint_handle_rx()` (pfcp_endpoint.c:356-420), and the osmo_pfcp_msg_free() that follows it
(pfcp_endpoint.c:459-460). -/
def Ep.handleRx (ep : Ep) (m : PMsg) (r : React) : Res Ep :=
  let k := ep.nextId
  ({ ep with nextId := k + 1 }.note (.received k m)).heartbeatReply k m r.io |>.bind fun ep =>
  (ep.handleMsg k m r).bind fun ep => ep.releaseUses (ep.rxUses r)

/-- The received message as a struct: `osmo_pfcp_msg_alloc_rx()`, and the results of decoding. -/
def Rx.msg (remote : Sockaddr) (d : DecHdr) (ies : Struct IeVal) : PMsg :=
  { msgAllocRx remote with
    isResponse := d.isResponse, h := d.h, causeAt := d.causeAt, nodeIdAt := d.nodeIdAt, ies }

/-- The messages of a bundle, one after the other (pfcp_endpoint.c:445-461): those whose IEs could not
be decoded are skipped. -/
def Ep.handleAll (ep : Ep) (remote : Sockaddr) : List Rx → List React → Res Ep
  | [], _ => .ok ep
  | ⟨_, none⟩ :: l, rs => ep.handleAll remote l rs
  | ⟨d, some ies⟩ :: l, rs =>
    (ep.handleRx (Rx.msg remote d ies) (rs.headD {})).bind fun ep => ep.handleAll remote l rs.tail

/-- `osmo_pfcp_fd_cb()` (pfcp_endpoint.c:423-465), when a datagram arrives.  recvfrom() takes at most
the size of the buffer, which is zeroed; an empty datagram is an error; a closed socket receives
nothing. -/
def Ep.rxDatagram (ep : Ep) (remote : Sockaddr) (datagram : List UInt8) (rs : List React) : Res Ep :=
  let o := datagram.take allocSize
  if ¬ ep.sock ∨ o = [] then .ok ep
  else if ¬ ep.cfg.hasRx then .abort
  else
    (rxBundle (o.length + 1) (.received o) (List.replicate (allocSize - o.length) 0)).bind fun l =>
    ep.handleAll remote l rs

/-! ### Histories -/

/-- What happens at the endpoint: the application calls API functions, a datagram arrives, time passes,
or an expired timer is handled (late or not, in any order). -/
inductive Op where
  | app (a : App)
  | rx (remote : Sockaddr) (datagram : List UInt8) (rs : List React)
  | advance (ms : Nat)
  | reqTimer (id : Nat) (io : Bool) (onFail : App)
  | respTimer (id : Nat)
  | peerTimer (fi : Nat) (io : Bool)

/-- One of these. -/
def Op.step : Op → Ep → Res Ep
  | .app a, ep => a.run ep
  | .rx remote datagram rs, ep => ep.rxDatagram remote datagram rs
  | .advance ms, ep => .ok { ep with now := ep.now + ms }
  | .reqTimer id io onFail, ep => ep.reqTimer id io onFail.run
  | .respTimer id, ep => ep.respTimer id
  | .peerTimer fi io, ep => ep.peerTimer fi io

/-- A history. -/
def exec : List Op → Ep → Res Ep
  | [], ep => .ok ep
  | op :: ops, ep => (op.step ep).bind (exec ops)

end Verif
