/-
What a CP peer sends: C116.
-/
import Verif.EndpointOwn
import Verif.PropsNet

namespace Verif.Props
open Verif Spec

/-- C116: whatever happens, each datagram that was ever sent for an Association Setup Request of a CP peer - the first one and all
retransmissions - goes to the address of the CP peer, and consists of the octets of an Association Setup Request with the endpoint's
Node ID and Recovery Time Stamp, and CP Function Features with BUNDL, and nothing else. -/
theorem C116_octets {ep : Ep} (h : Reached ep) (hn : InRange (.nodeId ep.cfg.nodeId)) {fi remote id seq}
    (ha : AssocReqOf fi remote id seq ep.log) :
    (∃ p, ep.peer? fi = some p ∧ p.remote = remote) ∧
    ∀ x ∈ transmissions id ep.log, x = (remote, assocReqOctets ep.cfg.nodeId ep.rts seq) := by
  obtain ⟨n1, t1, q, h1, h2, h3, h4, h5, h6⟩ := ha
  obtain ⟨o1, o2, o3, o4, o5, fi', p, o6, o7, o8⟩ := h.own.all id n1 t1 q h1 h6
  rw [h5] at o6
  cases o6
  refine ⟨⟨p, o7, o8.trans h3⟩, fun x hx => ?_⟩
  obtain ⟨e1, e2⟩ := (C46_bounded_identical h h1).2.1 x hx
  rw [assoc_encode o1 o2 o4 hn h.rts_lt o5] at e2
  cases x
  cases e2
  rw [h4]
  exact Prod.ext (e1.trans h3) rfl

/-- C116: a message whose response goes to a CP peer is an Association Setup Request of this CP peer. -/
theorem C116_only {ep : Ep} (h : Reached ep) {id n1 t1 q} (hp : Event.passed id n1 t1 q ∈ ep.log)
    (hc : q.ctx.respCb = some Cb.assoc) : ∃ fi p, ep.peer? fi = some p ∧ AssocReqOf fi p.remote id q.h.seq ep.log := by
  obtain ⟨o1, o2, o3, o4, o5, fi, p, o6, o7, o8⟩ := h.own.all id n1 t1 q hp hc
  exact ⟨fi, p, o7, n1, t1, q, hp, by rw [o1], o8.symm, rfl, o6, hc⟩

/-- C116, in a network: if a CP peer is associated, then - under the conditions of C84 - the endpoint at its address has received a message with
exactly this header and these IEs: the Node ID and the Recovery Time Stamp of this endpoint, no UP Function Features, CP Function Features with BUNDL;
and what has accepted the association is the answer to this message. -/
theorem C116_received {w : Net} (h : NetReached w) (hp : Proper w) (hr : Responsive w) {a fi p} (hf : (w a).freshSeqs)
    (hpe : (w a).peer? fi = some p) (ha : p.isAssociated = true) :
    ∃ k y id n1 t1 resp l, Event.received k y ∈ (w p.remote).log ∧ y.remote = a ∧
      y.h = { version := 1, type := 5, seq := y.h.seq } ∧
      y.ies = [[.leaf (.nodeId (w a).cfg.nodeId)], [.leaf (.u32 (w a).rts)], [], [.leaf (.cpFeatures [0x10])]] ∧
      Event.passed id n1 t1 resp ∈ (w p.remote).log ∧ resp.isResponse = true ∧ resp.remote = a ∧ resp.h.type = 6 ∧
      resp.h.seq = y.h.seq ∧ resp.ies[1]? = some (.leaf (.cause 1) :: l) := by
  obtain ⟨id, seq, k, x, t, ⟨n1, t1, q, g1, g2, g3, g4, g5, g6⟩, _, hx, hxr, hxq, l, hl⟩ := C61_accepted_partial (h.reached a) hpe ha
  obtain ⟨o1, o2, o3, -⟩ := (h.reached a).own.all id n1 t1 q g1 g6
  obtain ⟨e1, e2, j, y, hy, y1, y2, y3, hans⟩ := answers_agree h hp hr hf hx g1 hxr o3 (hxq.trans g4.symm)
  rw [g3] at hy hans
  rcases hans with ⟨id', n1', t1', resp, r1, r2, r3, r4, r5, r6⟩ | ⟨hb, _⟩
  · refine ⟨j, y, id', n1', t1', resp, l, hy, y1, by rw [y2]; exact o1, y3.trans o2, r1, r2, r3, ?_, ?_, ?_⟩
    · rw [r6, y2, g2]
    · rw [r4, hxq, y2, g4]
    · obtain ⟨_, _, _, _, _, hfr⟩ := h.received hx
      have hc := hfr.cause
      rw [e2, g2] at hc
      have hc : x.causeAt = some 1 := hc
      unfold PMsg.cause at hl
      rw [hc] at hl
      rw [r5]
      exact hl
  · rw [g2] at hb; cases hb

/-- The requests of CP peer 7 in a log. -/
def assocIds (log : List Event) : List (Nat × Sockaddr × Nat) :=
  log.filterMap fun e => match e with
    | .passed id _ _ q => if q.h.type = 5 ∧ q.ctx.peerFi = some 7 ∧ q.ctx.respCb = some Cb.assoc then some (id, q.remote, q.h.seq) else none
    | _ => none

-- A CP peer associates; there is a retransmission; then the request is refused, and 15 s later there is another one.
example : (match exec (exAssociate ++ [.advance 100, .reqTimer 0 true .done, .rx exUpf exReject [], .advance 15000, .peerTimer 7 true]) exEp with
    | .ok ep => some (assocIds ep.log, transmissions 0 ep.log, (assocIds ep.log).map fun x => (transmissions x.1 ep.log).length)
    | _ => none) =
    some ([(2, exUpf, 2), (0, exUpf, 1)],
      [(exUpf, assocReqOctets exEp.cfg.nodeId exEp.rts 1), (exUpf, assocReqOctets exEp.cfg.nodeId exEp.rts 1)], [1, 2]) := by
  decide +kernel

-- That the hypotheses of `C116_received` are met: as for C84 (PropsNet.lean).

end Verif.Props
