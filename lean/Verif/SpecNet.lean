/-
Specification of a network of endpoints: what can happen in it, and what may be expected of messages that travel
through it.
-/
import Verif.SpecEndpoint
import Verif.SpecMeaning
import Verif.PropsMsg2

namespace Verif
open Spec Props

/-- A network: the endpoint at each address. -/
abbrev Net := Sockaddr → Ep

/-- The endpoint at one address changes. -/
def Net.set (w : Net) (a : Sockaddr) (ep : Ep) : Net := fun b => if b = a then ep else w b

/-- Something happens at an endpoint that is not the arrival of a datagram. -/
def Op.isLocal : Op → Prop
  | .rx .. => False
  | _ => True

/-- What happens in the network: something at one endpoint; or a datagram that an endpoint has sent arrives where it was
sent to, with the address of the sender.  A datagram may arrive any number of times (also never), at any time, in any
order; its octets are those that were sent.  What callbacks do while a datagram is handled is part of this one step:
endpoints have nothing in common but the network, which delivers at any later time. -/
inductive NetStep (w : Net) : Net → Prop
  | local (a : Sockaddr) (op : Op) {ep'} : op.isLocal → op.step (w a) = .ok ep' → NetStep w (w.set a ep')
  | deliver (s r : Sockaddr) {why id o t} (rs : List React) {ep'} : Event.send why id r o true t ∈ (w s).log →
      (w r).rxDatagram s o rs = .ok ep' → NetStep w (w.set r ep')

/-- The states that a network can be in. -/
inductive NetReached : Net → Prop
  | start (w : Net) : (∀ a, ∃ cfg n1 t1 keepResp unixTime now, w a = Ep.create cfg n1 t1 keepResp unixTime now) → NetReached w
  | step {w w'} : NetReached w → NetStep w w' → NetReached w'

/-- Header and IEs that the format can carry, in a datagram that the receive buffer can take. -/
def Transportable (h : Hdr) (ies : Struct IeVal) : Prop :=
  GoodHdr h ∧ ∃ f, message h.type = some f ∧ GoodStruct f ies ∧ (msgOctets false h (structOctets f ies)).length < 2048

/-- What is expected of the applications: the messages that they pass to osmo_pfcp_endpoint_tx() can be carried by the
format, were not encoded before, and are responses if their type says so; they do not use
osmo_pfcp_endpoint_tx_data(). -/
structure Proper (w : Net) : Prop where
  sendable : ∀ a id n1 t1 m, Event.passed id n1 t1 m ∈ (w a).log →
    m.encoded = none ∧ Transportable m.h m.ies ∧ (m.isResponse = true ↔ m.h.type ∈ responseTypes)
  noDirect : ∀ a id r o ok t, Event.send .direct id r o ok t ∉ (w a).log

/-- What a Heartbeat Request or Response looks like. -/
def isHeartbeat (type seq rts : Nat) (h : Hdr) (ies : Struct IeVal) : Prop :=
  h = { version := 1, type, seq } ∧ ies = [[.leaf (.u32 rts)]]

/-- Where a message with this header and these IEs, sent from endpoint `ep` to `r`, comes from: the application passed it to
osmo_pfcp_endpoint_tx(), or it is a Heartbeat Request by osmo_pfcp_endpoint_tx_heartbeat_req(), or the automatic answer to
a Heartbeat Request that was received from `r`. -/
inductive Origin (ep : Ep) (r : Sockaddr) (h : Hdr) (ies : Struct IeVal) : Prop
  | passed (id n1 t1 : Nat) (m : PMsg) : Event.passed id n1 t1 m ∈ ep.log → m.remote = r → m.h = h → m.ies = ies → Origin ep r h ies
  | heartbeat (id : Nat) (o : List UInt8) (t : Nat) : Event.send .heartbeatReq id r o true t ∈ ep.log →
      isHeartbeat 1 (numAt o 4 3) ep.rts h ies → Origin ep r h ies
  | reply (k : Nat) (y : PMsg) : Event.received k y ∈ ep.log → y.remote = r → y.h.type = 1 →
      isHeartbeat 2 y.h.seq ep.rts h ies → Origin ep r h ies

/-- The sequence numbers of the requests that were passed to osmo_pfcp_endpoint_tx() or sent by
osmo_pfcp_endpoint_tx_heartbeat_req(). -/
def requestNumbers (log : List Event) : List Nat :=
  log.filterMap fun e =>
    match e with
    | .passed _ _ _ m => if m.isResponse then none else some m.h.seq
    | .send .heartbeatReq _ _ o _ _ => some (numAt o 4 3)
    | _ => none

/-- Responses answer requests: the application of each endpoint passes a response to osmo_pfcp_endpoint_tx() only for a
request that the endpoint has received, with its sequence number, its sender as destination, and the type that belongs to
that of the request (osmo_pfcp_msg_alloc_tx_resp() sees to the former, C32). -/
def Responsive (w : Net) : Prop :=
  ∀ a id n1 t1 m, Event.passed id n1 t1 m ∈ (w a).log → m.isResponse = true →
    ∃ k y, Event.received k y ∈ (w a).log ∧ y.isResponse = false ∧ y.remote = m.remote ∧ y.h.seq = m.h.seq ∧
      m.h.type = y.h.type + 1

/-- No sequence number was used twice so far: the counter was not set, and the numbers did not run out. -/
def Ep.freshSeqs (ep : Ep) : Prop := ep.resets = 0 ∧ ep.draws < 2 ^ 24

/-- The endpoint at `b` has received the request `m` from `a`, and has answered it with header `h` and IEs `ies`: by its
application, or automatically. -/
def Answered (w : Net) (a b : Sockaddr) (m : PMsg) (h : Hdr) (ies : Struct IeVal) : Prop :=
  ∃ k y, Event.received k y ∈ (w b).log ∧ y.remote = a ∧ y.h = m.h ∧ y.ies = m.ies ∧
    ((∃ id n1 t1 resp, Event.passed id n1 t1 resp ∈ (w b).log ∧ resp.isResponse = true ∧ resp.remote = a ∧ resp.h = h ∧
        resp.ies = ies ∧ resp.h.type = y.h.type + 1) ∨
     (m.h.type = 1 ∧ isHeartbeat 2 m.h.seq (w b).rts h ies))

end Verif
