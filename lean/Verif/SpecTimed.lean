/-
Specification of networks with time: timers that are handled on time, and datagrams that arrive soon or never.
-/
import Verif.SpecNet

namespace Verif
open Spec Props

/-- In the part `l` of a log, rx_msg_cb() answers each request that it gets, other than Heartbeat Requests (which are answered
by the library), at once: a response with its sequence number is passed to osmo_pfcp_endpoint_tx(), which succeeds. -/
def AnswersAtOnce (l : List Event) : Prop :=
  ∀ k y, Event.received k y ∈ l → Event.dispatch k none ∈ l → y.isResponse = false → y.h.type ≠ 1 →
    ∃ id n1 t1 resp, Event.passed id n1 t1 resp ∈ l ∧ resp.isResponse = true ∧ resp.h.seq = y.h.seq ∧ Event.returned id none ∈ l

/-- The states that a network can be in if (1) timers are handled on time, (2) a datagram arrives, if it does, within `D` ms:
by the clocks of the endpoints, its arrival is not before and at most `D` ms after the time at which it was sent (their clocks
need not agree beyond this), and (3) the applications at the addresses `B` answer requests at once. -/
inductive TimedReached (D : Nat) (B : Sockaddr → Prop) : Net → Prop
  | start (w : Net) : (∀ a, ∃ cfg n1 t1 keepResp unixTime now, w a = Ep.create cfg n1 t1 keepResp unixTime now) → TimedReached D B w
  | local {w} (a : Sockaddr) (op : Op) {ep'} : TimedReached D B w → op.isLocal → (∀ ms, op ≠ .advance ms) →
      op.step (w a) = .ok ep' → TimedReached D B (w.set a ep')
  | advance {w} (a : Sockaddr) (ms : Nat) : TimedReached D B w →
      (∀ e ∈ (w a).reqs ++ (w a).resps, ∀ d, e.timer = some d → (w a).now + ms ≤ d) →
      TimedReached D B (w.set a { w a with now := (w a).now + ms })
  | deliver {w} (s r : Sockaddr) {why id o t l} (rs : List React) {ep'} : TimedReached D B w →
      Event.send why id r o true t ∈ (w s).log → t ≤ (w r).now → (w r).now ≤ t + D →
      (w r).rxDatagram s o rs = .ok ep' → ep'.log = l ++ (w r).log → (B r → AnswersAtOnce l) → TimedReached D B (w.set r ep')

end Verif
