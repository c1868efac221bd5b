/-
C108: what an endpoint looks at in received messages.  And C79 in functional form: what is handled is a function of the
meaning of a datagram.
-/
import Verif.AlikeLemmas
import Verif.PropsExact3
import Verif.PropsMeaning
import Verif.PropsSafe

namespace Verif.Props
open Verif Spec

/-! ### C79, in functional form -/

/-- Messages are handled one after the other, with the reactions of the application to each. -/
def _root_.Verif.Ep.handleEach (ep : Ep) : List PMsg → List React → Res Ep
  | [], _ => .ok ep
  | m :: l, rs => (ep.handleRx m (rs.headD {})).bind fun ep => ep.handleEach l rs.tail

/-- The message that is allocated for what was seen. -/
def seenMsg (remote : Sockaddr) (x : Seen) : PMsg :=
  { msgAllocRx remote with isResponse := x.2.1, h := x.1, causeAt := x.2.2.1, nodeIdAt := x.2.2.2.1, ies := x.2.2.2.2 }

theorem handleSeen_each (remote : Sockaddr) : ∀ (l : List Seen) (ep : Ep) (rs : List React),
    ep.handleSeen remote l rs = ep.handleEach (l.map (seenMsg remote)) rs
  | [], _, _ => rfl
  | (h, r, c, n, ies) :: l, ep, rs => by
    simp only [Ep.handleSeen, List.map_cons, Ep.handleEach]
    congr 1
    funext ep
    exact handleSeen_each remote l ep rs.tail

theorem receive_covered {slack : List UInt8} (hz : (0 : UInt8) ∈ slack) : ∀ (n : Nat) (o : List UInt8), o.length ≤ n → Covered o →
    ∃ l, receive o slack = .ok l
  | n, o, hn, hcov => by
    rcases Covered.cases hcov with h0 | ⟨m, o', hm, rfl⟩
    · exact ⟨[], receive_none h0⟩
    · cases n with
      | zero => have := hm.1; simp only [List.length_append] at hn; omega
      | succ n =>
        obtain ⟨l, hl⟩ := receive_covered hz n o' (by have := hm.1; simp only [List.length_append] at hn; omega) (Covered.tail hm hcov)
        rw [receive_framed hm o' slack hz, hl]
        exact ⟨_, rfl⟩

theorem handled_msgs (remote : Sockaddr) (l : List Rx) :
    (handled l).map (seenMsg remote) = l.filterMap fun x => x.ies.map (Rx.msg remote x.hdr) := by
  induction l with
  | nil => rfl
  | cons x l ih =>
    obtain ⟨d, ies⟩ := x
    cases ies with
    | none => simpa [handled] using ih
    | some ies =>
      simp only [handled, List.filterMap_cons, Option.map_some, List.map_cons]
      exact congrArg _ ih

/-- C79, as a function of the datagram: whatever the state of the endpoint is and whatever the application does, reception of a
datagram amounts to handling the messages that it means, one after the other. -/
theorem C79_function (remote : Sockaddr) (d : List UInt8) (hlen : d.length < 2048) (hcov : Covered d) :
    ∃ xs, DatagramMeans remote d xs ∧ ∀ (ep : Ep), Reached ep → ∀ rs,
      ep.rxDatagram remote d rs = if ep.sock = true then ep.handleEach xs rs else .ok ep := by
  have hz : (0 : UInt8) ∈ List.replicate (2048 - d.length) 0 := List.mem_replicate.mpr ⟨by omega, rfl⟩
  obtain ⟨l, hl⟩ := receive_covered hz d.length d (Nat.le_refl _) hcov
  have h1 := hl
  rw [receive, Res.bind_eq_ok_iff] at h1
  obtain ⟨rxs, h2, h3⟩ := h1
  cases h3
  rw [rxBundle_eq] at h2
  have h4 := rxLoop_means remote _ hz _ d rxs hcov (by omega) h2
  refine ⟨_, h4, fun ep h rs => ?_⟩
  rw [rxDatagram_receive h _ _ hlen, hl]
  simp only [Res.bind_ok']
  rw [handleSeen_each, handled_msgs]

/-! ### C108 -/

/-- C108: of a received message, nothing but the following matters for what the endpoint does: whether it is a request or a
response, its sequence number, whether it is a Heartbeat Request, and whether it has the Cause "Request accepted".  Neither do the
message type, the SEID and the IEs matter otherwise, nor does the address that it comes from, but that it is the destination of a
Heartbeat Response.  Whatever the endpoint's state is, and whatever the application does in the callbacks. -/
theorem C108_message {m m' : PMsg} (hm : Alike m m') (ep : Ep) (r : React) :
    Res.Alike Ep.Alike (ep.handleRx m r) (ep.handleRx m' r) :=
  (Spec.Ep.Alike.refl ep).handleRx hm r

theorem handleEach_alike {l l' : List PMsg} (h : All2 Alike l l') : ∀ {ep ep' : Ep} (rs : List React), Ep.Alike ep ep' →
    Res.Alike Ep.Alike (ep.handleEach l rs) (ep'.handleEach l' rs) := by
  induction h with
  | nil => intro ep ep' rs he; exact he
  | cons hm _ ih => intro ep ep' rs he; exact Spec.Res.Alike.bind (he.handleRx hm _) fun a b hab => ih _ hab

/-- C108, for histories: if datagrams came from other addresses, then the endpoint would do just the same, but that Heartbeat
Responses go to these addresses. -/
theorem C108_addresses {ops ops' : List Op} (ho : All2 Op.FromElsewhere ops ops') (ep : Ep) :
    Res.Alike Ep.Alike (exec ops ep) (exec ops' ep) :=
  exec_alike ho (Spec.Ep.Alike.refl ep)

/-- C108, for datagrams: two datagrams whose messages are alike one by one have the same effect, wherever they come from. -/
theorem C108_datagrams (r r' : Sockaddr) {d d' : List UInt8} (hl : d.length < 2048) (hl' : d'.length < 2048) (hc : Covered d)
    (hc' : Covered d') : ∃ xs xs', DatagramMeans r d xs ∧ DatagramMeans r' d' xs' ∧ (All2 Alike xs xs' →
      ∀ (ep : Ep), Reached ep → ∀ rs, Res.Alike Ep.Alike (ep.rxDatagram r d rs) (ep.rxDatagram r' d' rs)) := by
  obtain ⟨xs, h1, h2⟩ := C79_function r d hl hc
  obtain ⟨xs', h1', h2'⟩ := C79_function r' d' hl' hc'
  refine ⟨xs, xs', h1, h1', fun ha ep h rs => ?_⟩
  rw [h2 ep h rs, h2' ep h rs]
  split
  · exact handleEach_alike ha rs (Spec.Ep.Alike.refl ep)
  · exact Spec.Ep.Alike.refl ep

/-! ### Examples -/

/-- An Association Setup Response and a Session Deletion Response, from different addresses, are alike. -/
example : Alike { remote := exUpf, isResponse := true, h := { version := 1, type := 6, seq := 1 }, causeAt := some 1,
                  ies := [[.leaf (.nodeId (.v4 exUpf))], [.leaf (.cause 1)], [.leaf (.u32 9)], [], [], [], []] }
                { remote := exOther, isResponse := true, h := { version := 1, type := 55, seq := 1 }, causeAt := some 0,
                  ies := [[.leaf (.cause 1)], []] } :=
  ⟨rfl, rfl, by decide, ⟨fun _ => ⟨[], rfl⟩, fun _ => ⟨[], rfl⟩⟩⟩

/-- With a Cause other than "Request accepted", they are not. -/
example : ¬ Alike { remote := exUpf, isResponse := true, h := { version := 1, type := 6, seq := 1 }, causeAt := some 1,
                    ies := [[.leaf (.nodeId (.v4 exUpf))], [.leaf (.cause 1)], [.leaf (.u32 9)], [], [], [], []] }
                  { remote := exUpf, isResponse := true, h := { version := 1, type := 6, seq := 1 }, causeAt := some 1,
                    ies := [[.leaf (.nodeId (.v4 exUpf))], [.leaf (.cause 64)], [.leaf (.u32 9)], [], [], [], []] } := by
  intro h
  obtain ⟨l, hl⟩ := h.accepted.2 ⟨[], rfl⟩
  cases hl

/-- Hence a CP peer is associated by a Session Deletion Response from an address that it has never talked to... -/
example : peerObs 7 (exAssociate ++ [.rx exOther exDelResp []]) = peerObs 7 (exAssociate ++ [.rx exUpf exAccept []]) ∧
    peerObs 7 (exAssociate ++ [.rx exOther exDelResp []]) = some ([.associated, .waitAssoc, .disabled], true, [true], [], 0) := by
  set_option maxRecDepth 100000 in exact ⟨rfl, rfl⟩

/-- ... and this is an instance of the theorem. -/
example : All2 Op.FromElsewhere (exAssociate ++ [.rx exUpf exDelResp []]) (exAssociate ++ [.rx exOther exDelResp []]) :=
  .cons (.same _) (.cons (.rx _ _ _ _) .nil)

/-- Each of the four matters: what an endpoint with a CP peer waiting for its response does depends on whether the Cause is
"Request accepted", on the sequence number, ... -/
example : peerObs 7 (exAssociate ++ [.rx exUpf exReject []]) ≠ peerObs 7 (exAssociate ++ [.rx exUpf exAccept []]) ∧
    peerObs 7 (exAssociate ++ [.rx exUpf [32, 55, 0, 9, 0, 0, 2, 0, 0, 19, 0, 1, 1] []]) ≠
      peerObs 7 (exAssociate ++ [.rx exUpf exDelResp []]) := by
  have e1 : peerObs 7 (exAssociate ++ [.rx exUpf exAccept []]) = some ([.associated, .waitAssoc, .disabled], true, [true], [], 0) := by
    set_option maxRecDepth 100000 in rfl
  have e2 : peerObs 7 (exAssociate ++ [.rx exUpf exReject []]) = some ([.waitRetry, .waitAssoc, .disabled], false, [], [], 0) := by
    set_option maxRecDepth 100000 in rfl
  have e3 : peerObs 7 (exAssociate ++ [.rx exUpf exDelResp []]) = some ([.associated, .waitAssoc, .disabled], true, [true], [], 0) := by
    set_option maxRecDepth 100000 in rfl
  have e4 : peerObs 7 (exAssociate ++ [.rx exUpf [32, 55, 0, 9, 0, 0, 2, 0, 0, 19, 0, 1, 1] []]) =
      some ([.waitAssoc, .disabled], false, [], [0], 1) := by
    set_option maxRecDepth 100000 in rfl
  rw [e1, e2, e3, e4]
  exact ⟨nofun, nofun⟩

/-- The transmissions of Heartbeat Responses: to whom, and what. -/
def replies (ops : List Op) : Option (List (Sockaddr × List UInt8)) :=
  match exec ops exEp with
  | .ok ep => some (ep.log.filterMap fun e => match e with | .send (.heartbeatReply _) _ r o _ _ => some (r, o) | _ => none)
  | _ => none

/-- ... whether it is a Heartbeat Request; and the address is where the Heartbeat Response goes. -/
example : replies [.app (.bind true .done), .rx exUpf exOctets []] = some [(exUpf, [32, 2, 0, 12, 0, 0, 1, 0, 0, 96, 0, 4, 131, 170, 126, 128])] ∧
    replies [.app (.bind true .done), .rx exOther exOctets []] = some [(exOther, [32, 2, 0, 12, 0, 0, 1, 0, 0, 96, 0, 4, 131, 170, 126, 128])] ∧
    replies [.app (.bind true .done), .rx exOther exDelOctets []] = some [] := by
  set_option maxRecDepth 100000 in exact ⟨rfl, rfl, rfl⟩

/-- The datagrams of the example are covered, and have their meaning. -/
example : Covered exDelResp ∧ Covered exAccept := by
  constructor
  · have := C72_framed_covered [exDelResp] (by intro m hm; cases List.mem_singleton.mp hm; exact ⟨by decide, by decide, by decide, by decide⟩)
    simpa using this
  · have := C72_framed_covered [exAccept] (by intro m hm; cases List.mem_singleton.mp hm; exact ⟨by decide, by decide, by decide, by decide⟩)
    simpa using this

end Verif.Props
