/-
What the whole trace of an endpoint's reception may look like, and what an endpoint may send (C117).
-/
import Verif.SpecEndpoint

namespace Verif.Spec
open Verif

/-- How the reception of message `k` ends; `log` is the log in which transmissions are looked up, `req` the request that it answers. -/
inductive RxEnd (log : List Event) (k : Nat) (m : PMsg) : Option Nat → List Event → Prop
  /-- Nothing is known of it: it is handed to rx_msg_cb(). -/
  | fresh : RxEnd log k m none [.dispatch k none]
  /-- A request that was answered before: the response `id` with its sequence number is sent again, to where and as it was sent before. -/
  | again {id n1 t1 resp o} (ok : Bool) (t : Nat) : m.isResponse = false → Event.passed id n1 t1 resp ∈ log → resp.isResponse = true →
      resp.h.seq = m.h.seq → resp.encode = .ok o → RxEnd log k m none [.send (.cachedReply k) id resp.remote o ok t]
  /-- A response to request `id`: its resp_cb() is called and does not want rx_msg_cb() to be called. -/
  | told {id n1 t1 q} (t : Nat) : m.isResponse = true → Event.passed id n1 t1 q ∈ log → q.isResponse = false → q.h.seq = m.h.seq →
      q.hasCb = true → RxEnd log k m (some id) [.respCb id (some k) t]
  /-- The same, and it wants it. -/
  | toldOn {id n1 t1 q} (t : Nat) : m.isResponse = true → Event.passed id n1 t1 q ∈ log → q.isResponse = false → q.h.seq = m.h.seq →
      q.hasCb = true → RxEnd log k m (some id) [.respCb id (some k) t, .dispatch k (some id)]
  /-- A response to request `id`, which has no resp_cb(): it is handed to rx_msg_cb(). -/
  | handed {id n1 t1 q} : m.isResponse = true → Event.passed id n1 t1 q ∈ log → q.isResponse = false → q.h.seq = m.h.seq →
      RxEnd log k m (some id) [.dispatch k (some id)]

/-- The automatic answer: to a Heartbeat Request, at most one, with its sequence number and the recovery time stamp; to nothing else. -/
def AutoReply (rts k : Nat) (m : PMsg) (l : List Event) : Prop :=
  l = [] ∨ m.h.type = 1 ∧ ∃ id ok t, l = [.send (.heartbeatReply k) id m.remote (heartbeatRespOctets m.h.seq rts) ok t]

/-- All that happens because message `k` is received: in this order. -/
def RxBlock (hasSetCtx : Bool) (rts : Nat) (log : List Event) (k : Nat) (m : PMsg) (l : List Event) : Prop :=
  ∃ hb req tail, AutoReply rts k m hb ∧ RxEnd log k m req tail ∧
    l = .received k m :: hb ++ (if hasSetCtx then [.setCtx k req] else []) ++ tail

/-- The number of datagrams that were handed to the socket. -/
def datagramsSent (log : List Event) : Nat := log.countP fun e => match e with | .send .. => true | _ => false

/-- The number of datagrams that the application asked for directly: with osmo_pfcp_endpoint_tx_data() and
osmo_pfcp_endpoint_tx_heartbeat_req(). -/
def directSent (log : List Event) : Nat :=
  log.countP fun e => match e with | .send .direct .. => true | .send .heartbeatReq .. => true | _ => false

/-- For each message that was passed to osmo_pfcp_endpoint_tx(): once, and N1 times again if it is a request. -/
def txAllowance (log : List Event) : Nat :=
  (log.map fun e => match e with | .passed _ n1 _ m => 1 + (if m.isResponse then 0 else n1) | _ => 0).sum

end Verif.Spec
