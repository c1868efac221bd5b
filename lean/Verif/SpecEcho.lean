/-
Endpoints whose applications send nothing: what they may send by themselves (C118).
-/
import Verif.SpecTrace
import Verif.SpecNet

namespace Verif.Spec
open Verif

/-- The application's callback sends nothing: it calls neither osmo_pfcp_endpoint_tx(), osmo_pfcp_endpoint_tx_data(),
osmo_pfcp_endpoint_tx_heartbeat_req() nor osmo_pfcp_cp_peer_associate(). -/
def _root_.Verif.App.silent : App → Bool
  | .done => true
  | .tx .. => false
  | .txData .. => false
  | .heartbeat .. => false
  | .invalidate _ rest => rest.silent
  | .setSeq _ rest => rest.silent
  | .setTimers _ _ _ rest => rest.silent
  | .close rest => rest.silent
  | .bind _ rest => rest.silent
  | .setT26 _ rest => rest.silent
  | .newPeer _ _ rest => rest.silent
  | .setAssocCb _ _ rest => rest.silent
  | .associate .. => false

/-- None of the callbacks does, upon a received message. -/
def _root_.Verif.React.silent (r : React) : Bool := App.silent r.onCtx && App.silent r.onResp && App.silent r.onRx

/-- The datagram is a response: by the message type in its second octet (TS 29.244 7.2.2.1). -/
def isResponseDatagram (o : List UInt8) : Bool := responseTypes.any fun t => o[1]? == some (octet t)

/-- Datagrams are delivered, one after the other, and no application sends anything.  How many of the deliveries were of datagrams that are not
responses, and how many datagrams the endpoints have sent. -/
inductive Echoes (w : Net) : Nat → Nat → Net → Prop
  | refl : Echoes w 0 0 w
  | deliver {n k w1} (s r : Sockaddr) {why id o t} (rs : List React) {ep' l} : Echoes w n k w1 →
      Event.send why id r o true t ∈ (w1 s).log → (∀ x ∈ rs, React.silent x = true) → (w1 r).rxDatagram s o rs = .ok ep' →
      ep'.log = l ++ (w1 r).log →
      Echoes w (n + if isResponseDatagram o then 0 else 1) (k + datagramsSent l) (w1.set r ep')

end Verif.Spec
