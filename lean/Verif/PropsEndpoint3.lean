/-
Properties of the endpoint: answers (C48 to C50, C52), sequence numbers of pending requests (C54), recovery
time stamp (C56), context (C57), Node ID (C59).
-/
import Verif.PropsEndpoint2
import Verif.EndpointSeq
import Verif.EndpointLog

namespace Verif

theorem Reached.refInv {ep : Ep} (h : Reached ep) : RefInv (ep, {}) := by
  refine h.invariant (I := RefInv) (fun a b h hs => h.step hs) ?_
  intro cfg n1 t1 kr ut now
  refine ⟨(Reached.create cfg n1 t1 kr ut now).inv, ?_, trivial⟩
  intro e he
  rw [List.mem_singleton.mp he]
  trivial

theorem Reached.seqInv {ep : Ep} (h : Reached ep) : SeqInv (ep, {}) := by
  refine h.invariant (I := SeqInv) (fun a b h hs => h.step hs) ?_
  intro cfg n1 t1 kr ut now
  exact ⟨fun e he => (by cases he), fun e he => (by cases he)⟩

theorem heartbeatReplies_rxEvents (l : List Event) : heartbeatReplies l = heartbeatReplies (rxEvents l).reverse := by
  unfold heartbeatReplies rxEvents
  rw [List.reverse_reverse, List.filterMap_filter]
  congr 1
  funext e
  cases e
  case send why _ _ _ _ _ => cases why <;> rfl
  case respCb _ r _ => cases r <;> rfl
  all_goals rfl

theorem cachedReplies_rxEvents (l : List Event) : cachedReplies l = cachedReplies (rxEvents l).reverse := by
  unfold cachedReplies rxEvents
  rw [List.reverse_reverse, List.filterMap_filter]
  congr 1
  funext e
  cases e
  case send why _ _ _ _ _ => cases why <;> rfl
  case respCb _ r _ => cases r <;> rfl
  all_goals rfl

theorem ctxEvent_obs (ep : Ep) (k req) : heartbeatReplies (ctxEvent ep k req).reverse = [] ∧
    cachedReplies (ctxEvent ep k req).reverse = [] := by
  unfold ctxEvent
  split <;> exact ⟨rfl, rfl⟩

theorem u32_tag : (Ty.coding 96 Kind.mand (Ty.ie IeKind.u32)).ti.tag = 96 := rfl

set_option maxRecDepth 100000 in
/-- The octets of a Heartbeat Response. -/
theorem heartbeatResp_encode (req : PMsg) (rts : Nat) :
    (heartbeatResp req rts).encode = .ok (heartbeatRespOctets req.h.seq rts) := by
  have key : ∀ s r, ∃ x, msgEncode { b := ⟨allocSize, []⟩ } { version := 1, type := 2, seq := s } [[.leaf (.u32 r)]] = .ok x ∧
      x.b.data = heartbeatRespOctets s r := by
    intro s r
    refine ⟨_, rfl, ?_⟩
    have h3 : ∃ a b c, storeBE 3 s = [a, b, c] := ⟨_, _, _, rfl⟩
    have h4 : ∃ a b c d, storeBE 4 r = [a, b, c, d] := ⟨_, _, _, _, rfl⟩
    obtain ⟨a, b, c, h3⟩ := h3
    obtain ⟨d, e, f, g, h4⟩ := h4
    have ho : headerOctets { version := 1, type := 2, seq := s } = [0x20, 2, 0, 4, a, b, c, 0] := by
      unfold headerOctets
      rw [h3]; simp [headerFlags, headerLen, storeBE]
    dsimp only [Msgb.data, Buf.b]
    rw [heartbeatRespOctets, be_eq, be_eq, h4, ho, h3, u32_tag]
    simp [setFollowOn, storeBE]
  obtain ⟨x, h1, h2⟩ := key req.h.seq rts
  unfold PMsg.encode heartbeatResp
  dsimp only
  rw [h1, ← h2]

set_option maxRecDepth 100000 in
/-- The octets of a Heartbeat Request. -/
theorem heartbeatReq_encode (remote : Sockaddr) (rts s : Nat) :
    ({ heartbeatReq remote rts with h := { (heartbeatReq remote rts).h with seq := s } } : PMsg).encode =
      .ok (heartbeatReqOctets s rts) := by
  have key : ∀ s r, ∃ x, msgEncode { b := ⟨allocSize, []⟩ } { version := 1, type := 1, seq := s } [[.leaf (.u32 r)]] = .ok x ∧
      x.b.data = heartbeatReqOctets s r := by
    intro s r
    refine ⟨_, rfl, ?_⟩
    have h3 : ∃ a b c, storeBE 3 s = [a, b, c] := ⟨_, _, _, rfl⟩
    have h4 : ∃ a b c d, storeBE 4 r = [a, b, c, d] := ⟨_, _, _, _, rfl⟩
    obtain ⟨a, b, c, h3⟩ := h3
    obtain ⟨d, e, f, g, h4⟩ := h4
    have ho : headerOctets { version := 1, type := 1, seq := s } = [0x20, 1, 0, 4, a, b, c, 0] := by
      unfold headerOctets
      rw [h3]; simp [headerFlags, headerLen, storeBE]
    dsimp only [Msgb.data, Buf.b]
    rw [heartbeatReqOctets, be_eq, be_eq, h4, ho, h3, u32_tag]
    simp [setFollowOn, storeBE]
  obtain ⟨x, h1, h2⟩ := key s rts
  unfold PMsg.encode heartbeatReq
  dsimp only
  rw [h1, ← h2]

namespace Props
open Spec

/-! ### C50: answers from the cache -/

/-- C50.  When a request arrives that has the sequence number of a response that is kept, then such a
response is sent again, once, with the octets and to the address that it was sent to before; rx_msg_cb()
is not called; and the response is still kept. -/
theorem C50_answered_from_cache {ep ep' : Ep} (h : Reached ep) {m r} (hr : ep.handleRx m r = .ok ep')
    (hm : m.isResponse = false) (hk : ∃ e ∈ ep.resps, e.m.h.seq = m.h.seq) :
    ∃ l id n1 t1 resp o, ep'.log = l ++ ep.log ∧ ep.keeps id ∧ Event.passed id n1 t1 resp ∈ ep.log ∧
      resp.isResponse = true ∧ resp.h.seq = m.h.seq ∧
      transmissions id ep.log = [(resp.remote, o)] ∧
      cachedReplies l = [(ep.nextId, id, resp.remote, o, r.io)] ∧ dispatches l = [] ∧ ep'.keeps id := by
  obtain ⟨e, he, hs⟩ := hk
  obtain ⟨hb, tail, ⟨l, hl, hx⟩, b0, -, -, -, c1, c2, c3⟩ := h.rxEvents hr
  cases hf : queueFind ep.resps m with
  | none => exact absurd hs ((queueFind_none (resps_kind h hm)).mp hf e he)
  | some prev =>
    obtain ⟨o, t1, t2, t3⟩ := c3 prev hm hf
    obtain ⟨hp, hsq⟩ := queueFind_some hf
    obtain ⟨n1, tt1, resp, o', hlf, hsame, hrr, _⟩ := h.inv.response (look_of_mem h.inv.nodupResps hp)
    obtain ⟨l', hl', d1, _⟩ := C51_dispatch_rule h hr
    have hll : l' = l := List.append_cancel_right (hl'.symm.trans hl)
    subst hll
    refine ⟨l', prev.id, n1, tt1, resp, o, hl, ⟨prev, hp, rfl⟩, (hlf.tally.info _ _ _).mpr rfl, hrr,
      by rw [← hsame.seq, hsq], by rw [t1, hsame.remote], ?_, d1 hm ⟨e, he, hs⟩, t3⟩
    · have hh : cachedReplies hb.reverse = [] := by
        simp only [cachedReplies, List.filterMap_eq_nil_iff, List.mem_reverse]
        intro x hxx
        obtain ⟨id, r, o, ok, t, rfl⟩ := b0 x hxx
        rfl
      have hc := (ctxEvent_obs ep ep.nextId (if m.isResponse then (queueFind ep.reqs m).map (·.id) else none)).2
      rw [cachedReplies_rxEvents, hx, t2, ← hsame.remote]
      simp only [List.reverse_append, List.reverse_cons, cachedReplies, List.filterMap_append] at hh hc ⊢
      simp [hh, hc]

/-! ### C52: Heartbeat Requests -/

/-- C52.  When a Heartbeat Request is received, then a Heartbeat Response is sent, once, before the
application is called, whatever it does then: to the address from which the request came, with the same
sequence number, and with the recovery time stamp of the endpoint. -/
theorem C52_heartbeat_answered {ep ep' : Ep} (h : Reached ep) {m r} (hr : ep.handleRx m r = .ok ep')
    (ht : m.h.type = 1) (hs : ep.sock = true) :
    ∃ l tail, ep'.log = l ++ ep.log ∧
      rxEvents l = .received ep.nextId m ::
        .send (.heartbeatReply ep.nextId) (ep.nextId + 1) m.remote (heartbeatRespOctets m.h.seq ep.rts) r.io ep.now :: tail ∧
      heartbeatReplies l = [(ep.nextId, m.remote, heartbeatRespOctets m.h.seq ep.rts, r.io)] := by
  obtain ⟨hb, tail, ⟨l, hl, hx⟩, b0, -, -, b3, c1, c2, c3⟩ := h.rxEvents hr
  have hbe := b3 ht hs _ (heartbeatResp_encode m ep.rts)
  rw [hbe] at hx
  refine ⟨l, _, hl, hx, ?_⟩
  have htl : heartbeatReplies tail.reverse = [] := by
    cases hm : m.isResponse with
    | true =>
      cases hf : queueFind ep.reqs m with
      | none => rw [c1 (by rw [if_pos hm]; exact hf)]; rfl
      | some prev =>
        rw [(c2 prev hm hf).1]
        split
        · split <;> rfl
        · rfl
    | false =>
      cases hf : queueFind ep.resps m with
      | none => rw [c1 (by rw [if_neg (by simp [hm])]; exact hf)]; rfl
      | some prev =>
        obtain ⟨o, _, ht, _⟩ := c3 prev hm hf
        rw [ht]; rfl
  have hc := (ctxEvent_obs ep ep.nextId (if m.isResponse then (queueFind ep.reqs m).map (·.id) else none)).1
  rw [heartbeatReplies_rxEvents, hx]
  simp only [List.reverse_append, List.reverse_cons, heartbeatReplies, List.filterMap_append] at htl hc ⊢
  simp [htl, hc]

/-- C52: nothing else is answered in this way. -/
theorem C52_only_heartbeats {ep ep' : Ep} (h : Reached ep) {m r} (hr : ep.handleRx m r = .ok ep') (ht : m.h.type ≠ 1) :
    ∃ l, ep'.log = l ++ ep.log ∧ heartbeatReplies l = [] := by
  obtain ⟨hb, tail, ⟨l, hl, hx⟩, b0, b1, -, -, c1, c2, c3⟩ := h.rxEvents hr
  rw [b1 ht] at hx
  refine ⟨l, hl, ?_⟩
  have htl : heartbeatReplies tail.reverse = [] := by
    cases hm : m.isResponse with
    | true =>
      cases hf : queueFind ep.reqs m with
      | none => rw [c1 (by rw [if_pos hm]; exact hf)]; rfl
      | some prev =>
        rw [(c2 prev hm hf).1]
        split
        · split <;> rfl
        · rfl
    | false =>
      cases hf : queueFind ep.resps m with
      | none => rw [c1 (by rw [if_neg (by simp [hm])]; exact hf)]; rfl
      | some prev =>
        obtain ⟨o, _, ht, _⟩ := c3 prev hm hf
        rw [ht]; rfl
  have hc := (ctxEvent_obs ep ep.nextId (if m.isResponse then (queueFind ep.reqs m).map (·.id) else none)).1
  rw [heartbeatReplies_rxEvents, hx]
  simp only [List.reverse_append, List.reverse_cons, heartbeatReplies, List.filterMap_append] at htl hc ⊢
  simp [htl, hc]

/-- C51, for what other implementations send: the messages of a bundle (or a single one) in one datagram
are all received, in the order in which they are sent, each from the sender's address. -/
theorem C51_bundle {ep ep' : Ep} (h : Reached ep) {remote rs} (hs : ep.sock = true) (ms : List (Hdr × Struct IeVal))
    (hms : ∀ m ∈ ms, GoodMsg m) (h0 : ms ≠ []) (hlen : (bundle ms).length < 2048)
    (hr : ep.rxDatagram remote (bundle ms) rs = .ok ep') :
    ∃ l, ep'.log = l ++ ep.log ∧ (receivedMsgs l).map (fun m => (m.remote, m.h, m.ies)) = ms.map fun m => (remote, m.1, m.2) := by
  have hne : bundle ms ≠ [] := by
    cases ms with
    | nil => exact absurd rfl h0
    | cons m ms =>
      unfold bundle
      rw [List.map_cons, bundleOctets_cons]
      simp [Spec.msgOctets]
  obtain ⟨msgs, l, h1, h2, h3⟩ := C51_datagram h hs hr hne
  obtain ⟨msgs', h4, h5⟩ := C24_bundle_reception ms hms (List.replicate (2048 - (bundle ms).length) 0)
    (List.mem_replicate.mpr ⟨by omega, rfl⟩)
  have hmin : min (bundle ms).length 2048 = (bundle ms).length := by omega
  rw [hmin, List.take_of_length_le (by omega), h4] at h1
  injection h1 with h1
  subst h1
  refine ⟨l, h2, ?_⟩
  rw [h3]
  clear h3 h4 h2 hr hne hmin hlen h0 hms
  induction ms generalizing msgs' with
  | nil =>
    simp only [List.map_nil, List.map_eq_nil_iff] at h5
    rw [h5]; rfl
  | cons m ms ih =>
    cases msgs' with
    | nil => simp at h5
    | cons x msgs' =>
      simp only [List.map_cons, List.cons.injEq] at h5
      obtain ⟨h6, h7⟩ := h5
      have hi := ih msgs' h7
      have hx : x.ies = some m.2 := congrArg Prod.snd h6
      have hh : x.hdr.h = m.1 := congrArg Prod.fst h6
      rw [List.filterMap_cons, hx]
      simp only [Option.map_some, List.map_cons, hi]
      rw [← hh]
      rfl

/-- C52, from datagram to datagram: Heartbeat Request octets cause Heartbeat Response octets. -/
theorem C52_heartbeat_datagram {ep ep' : Ep} (h : Reached ep) {remote rs} (hs : ep.sock = true) (seq rts : Nat)
    (hseq : seq < 2 ^ 24) (hrts : rts < 2 ^ 32) (hr : ep.rxDatagram remote (heartbeatReqOctets seq rts) rs = .ok ep') :
    ∃ l, ep'.log = l ++ ep.log ∧
      heartbeatReplies l = [(ep.nextId, remote, heartbeatRespOctets seq ep.rts, (rs.headD {}).io)] := by
  generalize hms : ([({ version := 1, type := 1, seq }, [[.leaf (.u32 rts)]])] : List (Hdr × Struct IeVal)) = ms
  have hp : payload ({ version := 1, type := 1, seq }, [[.leaf (.u32 rts)]]) = ie16 (96, be 4 rts) ++ [] := rfl
  have hbody : (bodyOctets { version := 1, type := 1, seq } (ie16 (96, be 4 rts) ++ [])).length = 12 := by
    simp [bodyOctets, ie16, part]
  have hb : bundle ms = heartbeatReqOctets seq rts := by
    subst hms
    unfold bundle
    rw [List.map_cons, List.map_nil, hp]
    unfold bundleOctets msgOctets
    rw [hbody]
    simp [bodyOctets, ie16, octet, part, bit, be, heartbeatReqOctets]
  have hg : ∀ m ∈ ms, GoodMsg m := by
    subst hms
    intro m hm
    rw [List.mem_singleton.mp hm]
    refine ⟨⟨by simp, by simp, hseq, by simp, by simp, by simp⟩, ⟨_, rfl, ?_⟩, ?_⟩
    · exact ⟨⟨Nat.le_refl _, Nat.le_refl _⟩, fun v hv => by rw [List.mem_singleton.mp hv]; exact ⟨rfl, hrts⟩, trivial⟩
    · rw [hp, hbody]; decide
  have hl : (bundle ms).length = 16 := by rw [hb]; simp [heartbeatReqOctets]
  obtain ⟨msgs, h4, h5⟩ := C24_bundle_reception ms hg (List.replicate (2048 - (bundle ms).length) 0)
    (List.mem_replicate.mpr ⟨by omega, rfl⟩)
  rw [← hb] at hr
  unfold Ep.rxDatagram at hr
  dsimp only at hr
  rw [List.take_of_length_le (by rw [hl]; decide), if_neg, if_neg] at hr
  rotate_left
  · simp [(C53_receives h).1 hs]
  · have : bundle ms ≠ [] := fun hx => by rw [hx] at hl; cases hl
    simp [hs, this]
  have ha : allocSize = 2048 := rfl
  rw [ha, h4] at hr
  simp only [Res.bind] at hr
  subst hms
  cases msgs with
  | nil => simp at h5
  | cons x msgs =>
    cases msgs with
    | cons y msgs => simp at h5
    | nil =>
      simp only [List.map_cons, List.map_nil, List.cons.injEq, and_true, Prod.mk.injEq] at h5
      obtain ⟨h6, h7⟩ := h5
      obtain ⟨d, ies⟩ := x
      dsimp only at h6 h7
      subst h7
      obtain ⟨ep1, h8, hr⟩ := Res.bind_eq_ok hr
      cases hr
      obtain ⟨l, _, hl, _, hx⟩ := C52_heartbeat_answered h h8 (by simp [Rx.msg, h6]) hs
      refine ⟨l, hl, ?_⟩
      rw [hx]
      simp [Rx.msg, h6, msgAllocRx, msgAlloc]

/-! ### Examples: receiving -/

/-- Another peer. -/
def exOther : Sockaddr := .inet 0x0a000001 9999

/-- A Heartbeat Response as the application could send it; here for sequence number 1. -/
def exAnswer : PMsg := { heartbeatResp exReq 7 with h := { version := 1, type := 2, seq := 1 } }

/-- A Session Deletion Request with sequence number 1. -/
def exDelOctets : List UInt8 := [32, 54, 0, 4, 0, 0, 1, 0]

/-- What can be seen of reception after a history: calls of rx_msg_cb(), answers from the cache, answers to Heartbeat
Requests (latest first), and the senders and types of the received messages. -/
structure RxSeen where
  disp : List (Nat × Option Nat) := []
  cached : List (Nat × Nat × Sockaddr × List UInt8 × Bool) := []
  beats : List (Nat × Sockaddr × List UInt8 × Bool) := []
  got : List (Sockaddr × Nat)
  deriving DecidableEq

def rxObs (ops : List Op) : Option RxSeen :=
  match exec ops exEp with
  | .ok ep => some ⟨dispatches ep.log, cachedReplies ep.log, heartbeatReplies ep.log,
      (receivedMsgs ep.log).map fun m => (m.remote, m.h.type)⟩
  | _ => none

/-- The four cases of C51_dispatch_rule.  A request, and no response with its sequence number is kept. -/
example : rxObs [.app (.bind true .done), .rx exOther exDelOctets []] = some ⟨[(0, none)], [], [], [(exOther, 54)]⟩ := by decide +kernel

/-- A response that no request waits for. -/
example : rxObs [.app (.bind true .done), .rx exRemote exRespOctets []] = some ⟨[(0, none)], [], [], [(exRemote, 2)]⟩ := by decide +kernel

/-- A response to request 0, of which resp_cb() returns 0, or 1. -/
example : rxObs (exSend ++ exResp) = some ⟨[], [], [], [(exRemote, 2)]⟩ ∧
    rxObs (exSend ++ [.rx exRemote exRespOctets [{ rc := 1 }]]) = some ⟨[(1, some 0)], [], [], [(exRemote, 2)]⟩ := by
  constructor <;> decide +kernel

/-- C50_answered_from_cache: a request with the sequence number of a kept response, twice. -/
example : rxObs [.app (.bind true (.tx exAnswer true .done .done)), .rx exRemote exDelOctets [], .rx exRemote exDelOctets []] =
    some ⟨[], [(2, 0, exRemote, [32, 2, 0, 12, 0, 0, 1, 0, 0, 96, 0, 4, 0, 0, 0, 7], true),
               (1, 0, exRemote, [32, 2, 0, 12, 0, 0, 1, 0, 0, 96, 0, 4, 0, 0, 0, 7], true)], [], [(exRemote, 54), (exRemote, 54)]⟩ := by
  decide +kernel

/-- C52: a Heartbeat Request is answered, with the recovery time stamp 2208988800, and passed to rx_msg_cb(); so it is when
it arrives again. -/
example : rxObs [.app (.bind true .done), .rx exOther (heartbeatReqOctets 5 7) [], .rx exOther (heartbeatReqOctets 5 7) []] =
    some ⟨[(2, none), (0, none)], [], [(2, exOther, heartbeatRespOctets 5 2208988800, true),
      (0, exOther, heartbeatRespOctets 5 2208988800, true)], [(exOther, 1), (exOther, 1)]⟩ := by decide +kernel

/-- C51_datagram: a bundle of a Heartbeat Request, with the follow-on flag, and a Session Deletion Request, and octets that are
no message. -/
example : rxObs [.app (.bind true .done), .rx exOther ([0x24, 1, 0, 12, 0, 0, 5, 0, 0, 96, 0, 4, 0, 0, 0, 7] ++ exDelOctets ++ [1, 2]) []] =
    some ⟨[(2, none), (0, none)], [], [(0, exOther, heartbeatRespOctets 5 2208988800, true)], [(exOther, 1), (exOther, 54)]⟩ := by decide +kernel

end Props
end Verif
