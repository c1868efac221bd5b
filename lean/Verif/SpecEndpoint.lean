/-
Specification of the life of a message that is passed to osmo_pfcp_endpoint_tx(): which events about it
are allowed, in which order.  This does not refer to queues or timers.
-/
import Verif.Endpoint
import Verif.SpecIes

namespace Verif

/-- A request with a response callback. -/
def PMsg.wantsCb (m : PMsg) : Bool := !m.isResponse && m.hasCb

/-- The event is about message `id`, as one that was passed to osmo_pfcp_endpoint_tx(). -/
def About (id : Nat) : Event → Prop
  | .passed i .. => i = id
  | .returned i _ => i = id
  | .send .tx i .. => i = id
  | .send .retrans i .. => i = id
  | .send (.cachedReply _) i .. => i = id
  | .send .direct .. => False
  | .send .heartbeatReq .. => False
  | .send (.heartbeatReply _) .. => False
  | .respCb i .. => i = id
  | .received .. => False
  | .setCtx _ req => req = some id
  | .dispatch _ req => req = some id
  | .freed i => i = id
  | .dropped i => i = id
  | .config .. => False
  | .invalidated _ => False
  | .peer .. => False
  | .configT26 _ => False

/-- Where a message is in its life. -/
inductive Stage where
  | unseen
  /-- osmo_pfcp_endpoint_tx() has been called. -/
  | passed (n1 t1 : Nat) (m : PMsg)
  /-- sendto() failed. -/
  | refused (n1 t1 : Nat) (m : PMsg)
  /-- sendto() took octets `o`. -/
  | sent (n1 t1 : Nat) (m : PMsg) (o : List UInt8)
  /-- resp_cb() has been called from osmo_pfcp_endpoint_tx(); whether the message was sent. -/
  | reported (n1 t1 : Nat) (m : PMsg) (sent : Bool)
  /-- Freed by osmo_pfcp_endpoint_tx(), which has not returned yet. -/
  | lost (n1 t1 : Nat) (m : PMsg)
  /-- A request waits for its response; `left` retransmissions remain. -/
  | waiting (n1 t1 : Nat) (m : PMsg) (o : List UInt8) (left : Nat)
  /-- A retransmission failed. -/
  | stuck (n1 t1 : Nat) (m : PMsg)
  /-- Response `k` was found: set_msg_ctx_cb() was called / resp_cb() / rx_msg_cb(). -/
  | matched (n1 t1 : Nat) (m : PMsg) (k : Nat)
  | called (n1 t1 : Nat) (m : PMsg) (k : Nat)
  | dispatched (n1 t1 : Nat) (m : PMsg) (k : Nat)
  /-- resp_cb(NULL) was called by a timer. -/
  | gaveUp (n1 t1 : Nat) (m : PMsg)
  /-- A response is kept. -/
  | kept (n1 t1 : Nat) (m : PMsg) (o : List UInt8)
  /-- Removed by osmo_pfcp_endpoint_close(). -/
  | dropped (n1 t1 : Nat) (m : PMsg)
  /-- osmo_pfcp_endpoint_tx() returned success, but nothing is kept or waited for. -/
  | leaked (n1 t1 : Nat) (m : PMsg)
  /-- Freed; whether by osmo_pfcp_endpoint_close(). -/
  | over (n1 t1 : Nat) (m : PMsg) (dropped : Bool)

/-- What may happen next to message `id`. -/
inductive Next (id : Nat) : Stage → Event → Stage → Prop
  | other (s e) : ¬ About id e → Next id s e s
  | pass (n1 t1 m) : Next id .unseen (.passed id n1 t1 m) (.passed n1 t1 m)
  | refuse (n1 t1 m o t) : m.encode = .ok o →
      Next id (.passed n1 t1 m) (.send .tx id m.remote o false t) (.refused n1 t1 m)
  | send (n1 t1 m o t) : m.encode = .ok o →
      Next id (.passed n1 t1 m) (.send .tx id m.remote o true t) (.sent n1 t1 m o)
  | reportNotSent (n1 t1 m t) : m.wantsCb = true →
      Next id (.passed n1 t1 m) (.respCb id none t) (.reported n1 t1 m false)
  | reportRefused (n1 t1 m t) : m.wantsCb = true →
      Next id (.refused n1 t1 m) (.respCb id none t) (.reported n1 t1 m false)
  | reportSent (n1 t1 m o t) : m.wantsCb = true → n1 = 0 ∨ t1 = 0 →
      Next id (.sent n1 t1 m o) (.respCb id none t) (.reported n1 t1 m true)
  | loseNotSent (n1 t1 m) : m.wantsCb = false → Next id (.passed n1 t1 m) (.freed id) (.lost n1 t1 m)
  | loseRefused (n1 t1 m) : m.wantsCb = false → Next id (.refused n1 t1 m) (.freed id) (.lost n1 t1 m)
  | loseReported (n1 t1 m) : Next id (.reported n1 t1 m false) (.freed id) (.lost n1 t1 m)
  | fail (n1 t1 m e) : Next id (.lost n1 t1 m) (.returned id (some e)) (.over n1 t1 m false)
  | queueReq (n1 t1 m o) : m.isResponse = false → n1 ≠ 0 → t1 ≠ 0 →
      Next id (.sent n1 t1 m o) (.returned id none) (.waiting n1 t1 m o n1)
  | queueResp (n1 t1 m o) : m.isResponse = true → n1 ≠ 0 → t1 ≠ 0 →
      Next id (.sent n1 t1 m o) (.returned id none) (.kept n1 t1 m o)
  | noQueue (n1 t1 m o) : m.wantsCb = false → n1 = 0 ∨ t1 = 0 →
      Next id (.sent n1 t1 m o) (.returned id none) (.leaked n1 t1 m)
  | noQueueReported (n1 t1 m) : Next id (.reported n1 t1 m true) (.returned id none) (.leaked n1 t1 m)
  | retrans (n1 t1 m o left t) :
      Next id (.waiting n1 t1 m o (left + 1)) (.send .retrans id m.remote o true t) (.waiting n1 t1 m o left)
  | retransFail (n1 t1 m o left t) :
      Next id (.waiting n1 t1 m o (left + 1)) (.send .retrans id m.remote o false t) (.stuck n1 t1 m)
  | giveUp (n1 t1 m o t) : m.hasCb = true →
      Next id (.waiting n1 t1 m o 0) (.respCb id none t) (.gaveUp n1 t1 m)
  | giveUpStuck (n1 t1 m t) : m.hasCb = true →
      Next id (.stuck n1 t1 m) (.respCb id none t) (.gaveUp n1 t1 m)
  | giveUpFree (n1 t1 m) : Next id (.gaveUp n1 t1 m) (.freed id) (.over n1 t1 m false)
  | giveUpNoCb (n1 t1 m o) : m.hasCb = false →
      Next id (.waiting n1 t1 m o 0) (.freed id) (.over n1 t1 m false)
  | giveUpStuckNoCb (n1 t1 m) : m.hasCb = false → Next id (.stuck n1 t1 m) (.freed id) (.over n1 t1 m false)
  | match_ (n1 t1 m o left k) : Next id (.waiting n1 t1 m o left) (.setCtx k (some id)) (.matched n1 t1 m k)
  | call (n1 t1 m o left k t) : m.hasCb = true →
      Next id (.waiting n1 t1 m o left) (.respCb id (some k) t) (.called n1 t1 m k)
  | callMatched (n1 t1 m k t) : m.hasCb = true →
      Next id (.matched n1 t1 m k) (.respCb id (some k) t) (.called n1 t1 m k)
  | dispatch (n1 t1 m o left k) : m.hasCb = false →
      Next id (.waiting n1 t1 m o left) (.dispatch k (some id)) (.dispatched n1 t1 m k)
  | dispatchMatched (n1 t1 m k) : m.hasCb = false →
      Next id (.matched n1 t1 m k) (.dispatch k (some id)) (.dispatched n1 t1 m k)
  | dispatchCalled (n1 t1 m k) : Next id (.called n1 t1 m k) (.dispatch k (some id)) (.dispatched n1 t1 m k)
  | freeCalled (n1 t1 m k) : Next id (.called n1 t1 m k) (.freed id) (.over n1 t1 m false)
  | freeDispatched (n1 t1 m k) : Next id (.dispatched n1 t1 m k) (.freed id) (.over n1 t1 m false)
  | cached (n1 t1 m o k ok t) : Next id (.kept n1 t1 m o) (.send (.cachedReply k) id m.remote o ok t) (.kept n1 t1 m o)
  | expire (n1 t1 m o) : Next id (.kept n1 t1 m o) (.freed id) (.over n1 t1 m false)
  | dropReq (n1 t1 m o left) : Next id (.waiting n1 t1 m o left) (.dropped id) (.dropped n1 t1 m)
  | dropResp (n1 t1 m o) : Next id (.kept n1 t1 m o) (.dropped id) (.dropped n1 t1 m)
  | dropFree (n1 t1 m) : Next id (.dropped n1 t1 m) (.freed id) (.over n1 t1 m true)

/-- The life of message `id` according to a log (latest event first). -/
inductive Life (id : Nat) : List Event → Stage → Prop
  | nil : Life id [] .unseen
  | cons {l s e s'} : Life id l s → Next id s e s' → Life id (e :: l) s'


/-! ### Observations about a message, from the log -/

/-- The transmissions of message `id` that are not answers to duplicates: destination and octets. -/
def transmissions (id : Nat) (log : List Event) : List (Sockaddr × List UInt8) :=
  log.filterMap fun e =>
    match e with
    | .send .tx i r o _ _ => if i = id then some (r, o) else none
    | .send .retrans i r o _ _ => if i = id then some (r, o) else none
    | _ => none

/-- The calls of the resp_cb() of message `id`: the response, or NULL. -/
def respCalls (id : Nat) (log : List Event) : List (Option Nat) :=
  log.filterMap fun e =>
    match e with
    | .respCb i resp _ => if i = id then some resp else none
    | _ => none

/-- How often message `id` is freed. -/
def frees (id : Nat) (log : List Event) : Nat :=
  log.countP fun e =>
    match e with
    | .freed i => i = id
    | _ => false

/-- How often message `id` is removed by osmo_pfcp_endpoint_close(). -/
def drops (id : Nat) (log : List Event) : Nat :=
  log.countP fun e =>
    match e with
    | .dropped i => i = id
    | _ => false

/-- The response of message `id` was received, its failure was reported, or it was removed. -/
def Ends (id : Nat) : Event → Prop
  | .respCb i _ _ => i = id
  | .setCtx _ req => req = some id
  | .dispatch _ req => req = some id
  | .freed i => i = id
  | .dropped i => i = id
  | _ => False

/-- The event happens because a message is received. -/
def isRx : Event → Bool
  | .received .. => true
  | .send (.heartbeatReply _) .. => true
  | .send (.cachedReply _) .. => true
  | .respCb _ (some _) _ => true
  | .setCtx .. => true
  | .dispatch .. => true
  | _ => false

/-- The events of reception, in the order in which they happened. -/
def rxEvents (log : List Event) : List Event := (log.filter isRx).reverse

/-- The calls of rx_msg_cb(): the received message, and the request that it answers. -/
def dispatches (log : List Event) : List (Nat × Option Nat) :=
  log.filterMap fun e =>
    match e with
    | .dispatch k req => some (k, req)
    | _ => none
/-- The message that is received. -/
def Event.rxMsg : Event → Option PMsg
  | .received _ m => some m
  | _ => none

/-- The messages that were received, in this order. -/
def receivedMsgs (log : List Event) : List PMsg := (rxEvents log).filterMap Event.rxMsg

/-- The octets of a Heartbeat Request and of a Heartbeat Response. -/
def heartbeatReqOctets (seq rts : Nat) : List UInt8 :=
  [0x20, 1, 0, 12] ++ Spec.be 3 seq ++ [0] ++ [0, 96, 0, 4] ++ Spec.be 4 rts
def heartbeatRespOctets (seq rts : Nat) : List UInt8 :=
  [0x20, 2, 0, 12] ++ Spec.be 3 seq ++ [0] ++ [0, 96, 0, 4] ++ Spec.be 4 rts

/-- The automatic answers to Heartbeat Requests: number of the received message, destination, octets,
whether sendto() took them. -/
def heartbeatReplies (log : List Event) : List (Nat × Sockaddr × List UInt8 × Bool) :=
  log.filterMap fun e =>
    match e with
    | .send (.heartbeatReply k) _ r o ok _ => some (k, r, o, ok)
    | _ => none

/-- The answers from the cache: number of the received message, the response, destination, octets, whether
sendto() took them. -/
def cachedReplies (log : List Event) : List (Nat × Nat × Sockaddr × List UInt8 × Bool) :=
  log.filterMap fun e =>
    match e with
    | .send (.cachedReply k) id r o ok _ => some (k, id, r, o, ok)
    | _ => none

/-- Received message `k` is a response with the sequence number of request `id`. -/
def Answers (log : List Event) (k id : Nat) : Prop :=
  ∃ rx n1 t1 m, Event.received k rx ∈ log ∧ Event.passed id n1 t1 m ∈ log ∧
    rx.isResponse = true ∧ m.isResponse = false ∧ rx.h.seq = m.h.seq

/-- Received message `k` is a request with the sequence number of response `id`, which was sent to `r`. -/
def Repeats (log : List Event) (k id : Nat) (r : Sockaddr) : Prop :=
  ∃ rx n1 t1 m, Event.received k rx ∈ log ∧ Event.passed id n1 t1 m ∈ log ∧
    rx.isResponse = false ∧ m.isResponse = true ∧ rx.h.seq = m.h.seq ∧ m.remote = r

/-! ### Time -/

/-- The timer definitions that an event puts in force: T1, KEEP_RESP. -/
def Event.timers : Event → Option (Nat × Nat)
  | .config _ t1 keepResp => some (t1, keepResp)
  | _ => none

/-- The timer definitions in force after a log: T1, KEEP_RESP. -/
def timersOf : List Event → Nat × Nat
  | [] => (0, 0)
  | e :: l => e.timers.getD (timersOf l)

/-- The time of a successful transmission (not one for a duplicate) of message `id`. -/
def Event.sentAt (id : Nat) : Event → Option Nat
  | .send .tx i _ _ true t => if i = id then some t else none
  | .send .retrans i _ _ true t => if i = id then some t else none
  | _ => none

/-- The times of the successful transmissions of message `id`, latest first. -/
def sentTimes (id : Nat) (log : List Event) : List Nat := log.filterMap (Event.sentAt id)

/-- The last successful transmission of message `id`: its time, and T1 and KEEP_RESP in force then. -/
def lastSent (id : Nat) : List Event → Option (Nat × Nat × Nat)
  | [] => none
  | e :: l =>
    match e.sentAt id with
    | some t => some (t, timersOf l)
    | none => lastSent id l

/-! ### Histories -/

/-- The states that an endpoint can be in between callbacks, whatever the application does, whatever
arrives, and whenever timers are handled: also between the messages of one datagram. -/
inductive Reached : Ep → Prop
  | create (cfg n1 t1 keepResp unixTime now) : Reached (Ep.create cfg n1 t1 keepResp unixTime now)
  | op {ep ep'} (op : Op) : Reached ep → op.step ep = .ok ep' → Reached ep'
  | rx {ep ep'} (m : PMsg) (r : React) : Reached ep → ep.handleRx m r = .ok ep' → Reached ep'

/-- What may have become of the endpoint in state `ep`. -/
inductive Later (ep : Ep) : Ep → Prop
  | refl : Later ep ep
  | op {ep1 ep'} (op : Op) : Later ep ep1 → op.step ep1 = .ok ep' → Later ep ep'
  | rx {ep1 ep'} (m : PMsg) (r : React) : Later ep ep1 → ep1.handleRx m r = .ok ep' → Later ep ep'

/-- The states that an endpoint can be in if timers are handled on time: no time passes while a timer that has
expired is not handled. -/
inductive Punctual : Ep → Prop
  | create (cfg n1 t1 keepResp unixTime now) : Punctual (Ep.create cfg n1 t1 keepResp unixTime now)
  | op {ep ep'} (op : Op) : Punctual ep → (∀ ms, op ≠ .advance ms) → op.step ep = .ok ep' → Punctual ep'
  | rx {ep ep'} (m : PMsg) (r : React) : Punctual ep → ep.handleRx m r = .ok ep' → Punctual ep'
  | advance {ep} (ms : Nat) : Punctual ep → (∀ e ∈ ep.reqs ++ ep.resps, ∀ d, e.timer = some d → ep.now + ms ≤ d) →
      Punctual { ep with now := ep.now + ms }

/-- The endpoint waits for the response to request `id`. -/
def Ep.pending (ep : Ep) (id : Nat) : Prop := ∃ e ∈ ep.reqs, e.id = id

/-- The endpoint keeps response `id`. -/
def Ep.keeps (ep : Ep) (id : Nat) : Prop := ∃ e ∈ ep.resps, e.id = id

/-- Since each of the pending requests got its sequence number, the counter was not set, and fewer than
2^24 - 1 numbers were taken. -/
def Ep.seqWindow (ep : Ep) : Prop := ∀ x ∈ ep.reqs, x.epoch = ep.resets ∧ ep.draws < x.draw + (2 ^ 24 - 1)

/-- The context of a message after the FSM instance `fi` is gone: references to it, and the use counts that
belong to it, are removed; nothing else changes. -/
def Ctx.without (c : Ctx) (fi : Nat) : Ctx :=
  { c with
    sessionFi := if c.sessionFi = some fi then none else c.sessionFi
    sessionUse := if c.sessionFi = some fi then none else c.sessionUse
    peerFi := if c.peerFi = some fi then none else c.peerFi
    peerUse := if c.peerFi = some fi then none else c.peerUse }

/-- What resp_cb() returns: that of CP peers, on_pfcp_assoc_resp(), always 0, that of the application what the
application says. -/
def respRc (prev : QEntry) (r : React) : Int := if prev.m.ctx.respCb = some Cb.assoc then 0 else r.rc

end Verif
