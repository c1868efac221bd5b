/-
What an application must observe, and what must be true of received datagrams, for the endpoint not to crash.
-/
import Verif.SpecPeer

namespace Verif

/-- A function returned, successfully or not: no failed assertion, no invalid memory access, no endless loop. -/
def Out.Returns {σ : Type} : Out σ → Prop
  | .ok _ => True
  | .err _ _ => True
  | _ => False

/-- osmo_pfcp_endpoint_tx() can encode the message, or fails to, but does not abort: with the Node ID that it gets
(if it has one), and with any sequence number (for a request) or its own (for a response). -/
def PMsg.Sendable (nodeId : NodeId) (m : PMsg) : Prop :=
  if m.isResponse then (m.withNodeId nodeId).encode.Returns
  else ∀ seq, seq < 2 ^ 24 → ({ m with h := { m.h with seq := seq } }.withNodeId nodeId).encode.Returns

/-- What an application may do.  `own`: the FSM instances of CP peers; `inside`: in a callback for a message
that the endpoint keeps, because it handles a received message or a timer. -/
def App.Tame (own : Nat → Prop) (nodeId : NodeId) (inside : Bool) : App → Prop
  | .done => True
  | .tx m _ onFail rest =>
    m.ctx.respCb ≠ some Cb.assoc ∧ m.Sendable nodeId ∧ onFail.Tame own nodeId inside ∧ rest.Tame own nodeId inside
  | .txData m _ rest => m.encode.Returns ∧ rest.Tame own nodeId inside
  | .heartbeat _ _ rest => rest.Tame own nodeId inside
  | .invalidate fi rest => ¬ own fi ∧ rest.Tame own nodeId inside
  | .setSeq _ rest => rest.Tame own nodeId inside
  | .setTimers _ _ _ rest => rest.Tame own nodeId inside
  | .close rest => inside = false ∧ rest.Tame own nodeId inside
  | .bind _ rest => inside = false ∧ rest.Tame own nodeId inside
  | .setT26 _ rest => rest.Tame own nodeId inside
  | .newPeer fi _ rest => own fi ∧ rest.Tame own nodeId inside
  | .setAssocCb _ _ rest => rest.Tame own nodeId inside
  | .associate _ _ rest => rest.Tame own nodeId inside

/-- ... in the callbacks for a received message.  `inRx`: not even rx_msg_cb() may close the endpoint. -/
def React.Tame (own : Nat → Prop) (nodeId : NodeId) (inRx : Bool) (r : React) : Prop :=
  r.onCtx.Tame own nodeId true ∧ r.onResp.Tame own nodeId true ∧ r.onRx.Tame own nodeId inRx

/-- Where the messages of a datagram begin, if their length fields are followed. -/
inductive Begins (o : List UInt8) : Nat → Prop
  | first : Begins o 0
  | next {i} : Begins o i → Begins o (i + Spec.announcedLength (o.drop i))

/-- The length field of each message in the datagram covers at least its header (if that is complete). -/
def Covered (o : List UInt8) : Prop :=
  ∀ i, Begins o i → i + Spec.announcedHeader (o.drop i) ≤ o.length →
    Spec.announcedHeader (o.drop i) ≤ Spec.announcedLength (o.drop i)

/-- There are no responses in the datagram. -/
def Asks (o : List UInt8) : Prop := ∀ i, Begins o i → ((o.drop i)[1]?.getD 0).toNat ∉ Spec.responseTypes

/-- What may happen at an endpoint.  rx_msg_cb() may close it, or bind it again, if the datagram has only requests in
it. -/
def Op.Tame (own : Nat → Prop) (nodeId : NodeId) : Op → Prop
  | .app a => a.Tame own nodeId false
  | .rx _ datagram rs => datagram.length < 2048 ∧ Covered datagram ∧
      ((∀ r ∈ rs, r.Tame own nodeId true) ∨ (Asks datagram ∧ ∀ r ∈ rs, r.Tame own nodeId false))
  | .advance _ => True
  | .reqTimer _ _ onFail => onFail.Tame own nodeId true
  | .respTimer _ => True
  | .peerTimer _ _ => True

end Verif
