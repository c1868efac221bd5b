/-
Properties of a network of endpoints: C82, C83, ...
-/
import Verif.NetExec

namespace Verif.Props
open Verif Spec

/-! ### C82: what is received was sent -/

/-- C82: whatever an endpoint receives is in a datagram which the endpoint at the address that it reports as the sender
gave to sendto() for it; it is a response if and only if its type says so. -/
theorem C82_sent {w : Net} (h : NetReached w) {r k x} (hx : Event.received k x ∈ (w r).log) :
    ∃ why id o t, Event.send why id r o true t ∈ (w x.remote).log ∧ (x.isResponse = true ↔ x.h.type ∈ responseTypes) ∧
      (Covered o → o.length < 2048 → ∃ xs, DatagramMeans x.remote o xs ∧ x ∈ xs) := by
  obtain ⟨why, id, o, t, h1, h2⟩ := h.received hx
  exact ⟨why, id, o, t, h1, h2.kind, h2.means⟩

/-- C82: from end to end.  If the applications pass messages to osmo_pfcp_endpoint_tx() that the format can carry, header and
IEs of each message that an endpoint receives are those of a message that the application at the reported address passed for
this endpoint; or it is one of the library's own heartbeat messages. -/
theorem C82_integrity {w : Net} (h : NetReached w) (hp : Proper w) {r k x} (hx : Event.received k x ∈ (w r).log) :
    Origin (w x.remote) r x.h x.ies :=
  h.origin hp hx

/-- The hypotheses can be met: see the examples below.

C56, for all that is ever sent: every Heartbeat Request of osmo_pfcp_endpoint_tx_heartbeat_req(), and every automatic Heartbeat
Response, consists of the octets of such a message with the Recovery Time Stamp of the endpoint; the response has the sequence
number of the request, and goes to where the request came from. -/
theorem C56_every_heartbeat {ep : Ep} (h : Reached ep) {why id r o ok t} (hs : Event.send why id r o ok t ∈ ep.log) :
    (why = .heartbeatReq → ∃ s, 1 ≤ s ∧ s < 2 ^ 24 ∧ o = heartbeatReqOctets s ep.rts) ∧
    (∀ k, why = .heartbeatReply k →
      ∃ y, Event.received k y ∈ ep.log ∧ y.h.type = 1 ∧ y.remote = r ∧ o = heartbeatRespOctets y.h.seq ep.rts) := by
  have := h.beats _ hs
  exact ⟨fun hw => by rw [hw] at this; exact this, fun k hw => by rw [hw] at this; exact this⟩

/-! ### C83: who answers -/

/-- C83: requests - those of the application and those of osmo_pfcp_endpoint_tx_heartbeat_req() - have distinct sequence numbers,
as long as the counter was not set and has not come around. -/
theorem C83_distinct_numbers {ep : Ep} (h : Reached ep) (hf : ep.freshSeqs) : (requestNumbers ep.log).Nodup :=
  (h.counts hf).nodup


/-- A request with the number of `m` that has come from `a` is `m`. -/
theorem request_known {w : Net} (h : NetReached w) (hp : Proper w) {a b id n1 t1 m j y} (hf : (w a).freshSeqs)
    (hm : Event.passed id n1 t1 m ∈ (w a).log) (hmr : m.isResponse = false)
    (hy : Event.received j y ∈ (w b).log) (hyr : y.isResponse = false) (hya : y.remote = a) (hyq : y.h.seq = m.h.seq) :
    y.h = m.h ∧ y.ies = m.ies ∧ m.remote = b := by
  have hmn : (Event.passed id n1 t1 m).requestNumber = some m.h.seq := by simp [Event.requestNumber, hmr]
  have hyt : y.h.type ∉ responseTypes := (C82_sent h hy).elim fun _ ⟨_, _, _, _, hk, _⟩ => by
    rw [← hk, hyr]; simp
  have ho := h.origin hp hy
  rw [hya] at ho
  cases ho with
  | passed id2 n2 t2 m2 g1 g2 g3 g4 =>
    have hm2 : m2.isResponse = false := by
      have := (hp.sendable _ _ _ _ _ g1).2.2
      rw [g3] at this
      cases hx : m2.isResponse
      · rfl
      · exact absurd (this.1 hx) hyt
    have := same_request (h.reached a) hf g1 hm (n := m.h.seq) (by simp [Event.requestNumber, hm2, g3, hyq]) hmn
    cases this
    exact ⟨g3.symm, g4.symm, g2⟩
  | heartbeat id2 o t g1 g2 =>
    have g3 : numAt o 4 3 = m.h.seq := by rw [← hyq, g2.1]
    have := same_request (h.reached a) hf g1 hm (n := m.h.seq) (by simp [Event.requestNumber, g3]) hmn
    cases this
  | reply j' z _ _ _ g2 =>
    rw [g2.1] at hyt
    exact absurd (by decide : 2 ∈ responseTypes) hyt

theorem answers_agree {w : Net} (h : NetReached w) (hp : Proper w) (hr : Responsive w) {a id k n1 t1 m x} (hf : (w a).freshSeqs)
    (hx : Event.received k x ∈ (w a).log) (hm : Event.passed id n1 t1 m ∈ (w a).log) (hxr : x.isResponse = true)
    (hmr : m.isResponse = false) (hq : x.h.seq = m.h.seq) :
    x.remote = m.remote ∧ x.h.type = m.h.type + 1 ∧ Answered w a m.remote m x.h x.ies := by
  have hxt : x.h.type ∈ responseTypes := (C82_sent h hx).elim fun _ ⟨_, _, _, _, hk, _⟩ => hk.1 hxr
  have back : ∀ {b j y}, Event.received j y ∈ (w b).log → y.isResponse = false → y.remote = a → y.h.seq = m.h.seq →
      y.h = m.h ∧ y.ies = m.ies ∧ m.remote = b := fun hy hyr hya hyq => request_known h hp hf hm hmr hy hyr hya hyq
  have ho := h.origin hp hx
  cases ho with
  | passed id' n1' t1' resp g1 g2 g3 g4 =>
    have hrr : resp.isResponse = true := (hp.sendable _ _ _ _ _ g1).2.2.2 (by rw [g3]; exact hxt)
    obtain ⟨j, y, hy, hyr, hya, hyq, hyt⟩ := hr _ _ _ _ _ g1 hrr
    obtain ⟨e1, e2, e3⟩ := back hy hyr (hya.trans g2) (by rw [hyq, g3, hq])
    refine ⟨e3.symm, ?_, ?_⟩
    · rw [← g3, hyt, e1]
    · rw [e3]
      exact ⟨j, y, hy, hya.trans g2, e1, e2, .inl ⟨id', n1', t1', resp, g1, hrr, g2, g3, g4, hyt⟩⟩
  | heartbeat id' o t g1 g2 =>
    rw [g2.1] at hxt
    exact absurd hxt (by decide : 1 ∉ responseTypes)
  | reply j y hy hya hyt g2 =>
    have hyr : y.isResponse = false := by
      obtain ⟨_, _, _, _, _, hk, _⟩ := C82_sent h hy
      cases hx : y.isResponse
      · rfl
      · have := hk.1 hx
        rw [hyt] at this
        exact absurd this (by decide)
    have hyq : y.h.seq = m.h.seq := by rw [← hq, g2.1]
    obtain ⟨e1, e2, e3⟩ := back hy hyr hya hyq
    refine ⟨e3.symm, ?_, ?_⟩
    · rw [g2.1, ← e1, hyt]
    · rw [e3]
      refine ⟨j, y, hy, hya, e1, e2, .inr ⟨by rw [← e1, hyt], ?_⟩⟩
      rw [← hyq]; exact g2

/-- C83: if the resp_cb() of a request is called for a received response, then - as long as no sequence number was used twice,
and the applications answer requests only - the endpoint to which the request was sent has received this request, with
the header and the IEs that were passed, and its application (or, for heartbeats, the library) has answered it with the header and
the IEs that resp_cb() gets. -/
theorem C83_resp_cb {w : Net} (h : NetReached w) (hp : Proper w) (hr : Responsive w) {a id k t} (hf : (w a).freshSeqs)
    (hc : Event.respCb id (some k) t ∈ (w a).log) :
    ∃ n1 t1 m x, Event.passed id n1 t1 m ∈ (w a).log ∧ Event.received k x ∈ (w a).log ∧ m.isResponse = false ∧
      x.remote = m.remote ∧ x.h.seq = m.h.seq ∧ x.h.type = m.h.type + 1 ∧ Answered w a m.remote m x.h x.ies :=
  let ⟨x, n1, t1, m, hx, hm, hxr, hmr, hq⟩ := (h.reached a).refInv.ev _ hc
  let ⟨h1, h2, h3⟩ := answers_agree h hp hr hf hx hm hxr hmr hq
  ⟨n1, t1, m, x, hm, hx, hmr, h1, hq, h2, h3⟩

/-- C83: the same for a response that rx_msg_cb() gets, with the request that it answers. -/
theorem C83_dispatch {w : Net} (h : NetReached w) (hp : Proper w) (hr : Responsive w) {a id k} (hf : (w a).freshSeqs)
    (hc : Event.dispatch k (some id) ∈ (w a).log) :
    ∃ n1 t1 m x, Event.passed id n1 t1 m ∈ (w a).log ∧ Event.received k x ∈ (w a).log ∧ m.isResponse = false ∧
      x.remote = m.remote ∧ x.h.seq = m.h.seq ∧ x.h.type = m.h.type + 1 ∧ Answered w a m.remote m x.h x.ies :=
  let ⟨x, n1, t1, m, hx, hm, hxr, hmr, hq⟩ := (h.reached a).refInv.ev _ hc
  let ⟨h1, h2, h3⟩ := answers_agree h hp hr hf hx hm hxr hmr hq
  ⟨n1, t1, m, x, hm, hx, hmr, h1, hq, h2, h3⟩

/-! ### C84: an association has two ends -/

/-- C84: if a CP peer is associated, then - as long as no sequence number was used twice, and the applications answer
requests only - the endpoint at the address of the peer has received an Association Setup Request from here, and its application
has accepted it: has passed to osmo_pfcp_endpoint_tx() an Association Setup Response for it, with Cause (the second IE of this
message) "Request accepted". -/
theorem C84_associated {w : Net} (h : NetReached w) (hp : Proper w) (hr : Responsive w) {a fi p} (hf : (w a).freshSeqs)
    (hpe : (w a).peer? fi = some p) (ha : p.isAssociated = true) :
    ∃ k y id n1 t1 resp l, Event.received k y ∈ (w p.remote).log ∧ y.remote = a ∧ y.h.type = 5 ∧
      Event.passed id n1 t1 resp ∈ (w p.remote).log ∧ resp.isResponse = true ∧ resp.remote = a ∧ resp.h.type = 6 ∧
      resp.h.seq = y.h.seq ∧ resp.ies[1]? = some (.leaf (.cause 1) :: l) := by
  obtain ⟨id, seq, k, x, t, ⟨n1, t1, q, g1, g2, g3, g4, _⟩, _, hx, hxr, hxq, l, hl⟩ := C61_accepted_partial (h.reached a) hpe ha
  have hqr : q.isResponse = false := by
    have := (hp.sendable _ _ _ _ _ g1).2.2
    rw [g2] at this
    cases hx : q.isResponse
    · rfl
    · exact absurd (this.1 hx) (by decide)
  obtain ⟨e1, e2, j, y, hy, y1, y2, y3, hans⟩ := answers_agree h hp hr hf hx g1 hxr hqr (hxq.trans g4.symm)
  rw [g3] at hy hans
  rcases hans with ⟨id', n1', t1', resp, r1, r2, r3, r4, r5, r6⟩ | ⟨hb, _⟩
  · refine ⟨j, y, id', n1', t1', resp, l, hy, y1, by rw [y2, g2], r1, r2, r3, ?_, ?_, ?_⟩
    · rw [r6, y2, g2]
    · rw [r4, hxq, y2, g4]
    · obtain ⟨_, _, _, _, _, hfr⟩ := h.received hx
      have hc := hfr.cause
      rw [e2, g2] at hc
      have hc : x.causeAt = some 1 := hc
      unfold PMsg.cause at hl
      rw [hc] at hl
      rw [r5]
      exact hl
  · rw [g2] at hb; cases hb

/-! ### C85: one delivery is enough -/

/-- C85: when a datagram of a request (the first one, or a retransmission) arrives at an open endpoint, the request is received,
with the header and the IEs that were passed; and rx_msg_cb() gets it - once -, unless the endpoint keeps a response with its
sequence number, which it then sends (again). -/
theorem C85_request_delivered {w : Net} (h : NetReached w) (hp : Proper w) {a b id n1 t1 m o rs ep'}
    (hm : Event.passed id n1 t1 m ∈ (w a).log) (hq : m.isResponse = false) (ho : (b, o) ∈ transmissions id (w a).log)
    (hs : (w b).sock = true) (hr : (w b).rxDatagram a o rs = .ok ep') :
    ∃ x l, ep'.log = l ++ (w b).log ∧ receivedMsgs l = [x] ∧ Event.received (w b).nextId x ∈ l ∧
      x.remote = a ∧ x.h = m.h ∧ x.ies = m.ies ∧ x.isResponse = false ∧
      ((∀ e ∈ (w b).resps, e.m.h.seq ≠ m.h.seq) ∧ dispatches l = [((w b).nextId, none)] ∨
       (∃ id' n1' t1' resp o' , Event.passed id' n1' t1' resp ∈ (w b).log ∧ (w b).keeps id' ∧ resp.isResponse = true ∧
          resp.h.seq = m.h.seq ∧ dispatches l = [] ∧
          cachedReplies l = [((w b).nextId, id', resp.remote, o', (rs.headD {}).io)])) := by
  have hb := h.reached b
  obtain ⟨s, h1, _⟩ := (h.reached a).inv.life id
  have henc := (h1.tally.same n1 t1 m ((h1.tally.info n1 t1 m).1 hm) _ ho).2
  obtain ⟨x, x1, x2, x3, x4, x5⟩ := h.arrives hp hm henc hs hr
  rw [hq] at x4
  obtain ⟨l, hl, d1, d2, _⟩ := C51_dispatch_rule hb x5
  obtain ⟨hb', tail, ⟨l', hl', hx⟩, b0, -, -, -, c1, -, c3⟩ := hb.rxEvents x5
  have hll : l' = l := List.append_cancel_right (hl'.symm.trans hl)
  subst hll
  have hrec : Event.received (w b).nextId x ∈ l' := by
    have : Event.received (w b).nextId x ∈ rxEvents l' := by rw [hx]; simp
    simp only [rxEvents, List.mem_reverse, List.mem_filter] at this
    exact this.1
  have hone : receivedMsgs l' = [x] := by
    unfold receivedMsgs
    rw [hx]
    have h1 : hb'.filterMap Event.rxMsg = [] := by
      rw [List.filterMap_eq_nil_iff]
      intro e he
      obtain ⟨_, _, _, _, _, rfl⟩ := b0 e he
      rfl
    have h2 : ∀ k req, (ctxEvent (w b) k req).filterMap Event.rxMsg = [] := by
      intro k req
      unfold ctxEvent
      split <;> rfl
    have h3 : tail.filterMap Event.rxMsg = [] := by
      cases hf : queueFind (w b).resps x with
      | none => rw [c1 (by simp [x4, hf])]; rfl
      | some prev =>
        obtain ⟨o', _, t2, _⟩ := c3 prev x4 hf
        rw [t2]; rfl
    simp only [List.cons_append, List.filterMap_cons, List.filterMap_append, h1, h2, h3]
    rfl
  refine ⟨x, l', hl, hone, hrec, x1, x2, x3, x4, ?_⟩
  by_cases hk : ∃ e ∈ (w b).resps, e.m.h.seq = x.h.seq
  · obtain ⟨l2, id', n1', t1', resp, o', g1, g2, g3, g4, g5, _, g7, g8, _⟩ := C50_answered_from_cache hb x5 x4 hk
    cases List.append_cancel_right (g1.symm.trans hl)
    exact .inr ⟨id', n1', t1', resp, o', g3, g2, g4, by rw [g5, x2], g8, g7⟩
  · have hk' : ∀ e ∈ (w b).resps, e.m.h.seq ≠ x.h.seq := fun e he hq => hk ⟨e, he, hq⟩
    exact .inl ⟨by rw [← x2]; exact hk', d2 x4 hk'⟩

/-- C85: when a datagram of a response arrives at an open endpoint where the request is pending, then - as long as no sequence number
was used twice - its resp_cb() is called with the header and the IEs of the response that were passed, and this request is done:
it is not pending any more, and is freed. -/
theorem C85_response_delivered {w : Net} (h : NetReached w) (hp : Proper w) {a b id n1 t1 m id' n1' t1' resp o why ok t rs ep'}
    (hf : (w a).freshSeqs) (hm : Event.passed id n1 t1 m ∈ (w a).log) (hq : m.isResponse = false) (hpe : (w a).pending id)
    (hresp : Event.passed id' n1' t1' resp ∈ (w b).log) (hrr : resp.isResponse = true) (hseq : resp.h.seq = m.h.seq)
    (ho : Event.send why id' a o ok t ∈ (w b).log) (hw : why = .tx ∨ ∃ k, why = .cachedReply k)
    (hs : (w a).sock = true) (hr : (w a).rxDatagram b o rs = .ok ep') :
    ∃ x, Event.received (w a).nextId x ∈ ep'.log ∧ x.remote = b ∧ x.h = resp.h ∧ x.ies = resp.ies ∧
      respCalls id ep'.log = (if m.hasCb then [some (w a).nextId] else []) ∧ ¬ ep'.pending id ∧ frees id ep'.log = 1 := by
  have ha := h.reached a
  obtain ⟨s, h1, _⟩ := (h.reached b).inv.life id'
  obtain ⟨n2, t2, resp', g1, _, g2⟩ := Life.sends h1 ho (by rcases hw with rfl | ⟨k, rfl⟩ <;> rfl)
  have heq : resp' = resp := by
    have := ((h1.tally.info n2 t2 resp').1 g1).symm.trans ((h1.tally.info n1' t1' resp).1 hresp)
    simp only [Option.some.injEq, Prod.mk.injEq] at this
    exact this.2.2
  subst heq
  obtain ⟨x, x1, x2, x3, x4, x5⟩ := h.arrives hp hresp g2 hs hr
  obtain ⟨e, he, hid⟩ := hpe
  obtain ⟨n3, t3, m3, o3, l3, s3, _⟩ := ha.inv.request (look_of_mem ha.inv.nodupReqs he) rfl
  rw [hid] at l3
  have hm3 : m3 = m := by
    have := ((l3.tally.info n3 t3 m3).1 ((l3.tally.info n3 t3 m3).2 rfl)).symm.trans ((l3.tally.info n1 t1 m).1 hm)
    simp only [Option.some.injEq, Prod.mk.injEq] at this
    exact this.2.2
  subst hm3
  have hsq : e.m.h.seq = x.h.seq := by rw [s3.seq, x2, hseq]
  obtain ⟨f1, f2, f3⟩ := C48_response_ends_request ha x5 (x4.trans hrr) he hsq
    fun y hy hyq => sole_request ha hf hy he (hyq.trans hsq.symm)
  rw [hid] at f1 f2 f3
  obtain ⟨hb', tail, ⟨l', hl', hx⟩, _⟩ := ha.rxEvents x5
  have hrec : Event.received (w a).nextId x ∈ l' := by
    have : Event.received (w a).nextId x ∈ rxEvents l' := by rw [hx]; simp
    simp only [rxEvents, List.mem_reverse, List.mem_filter] at this
    exact this.1
  refine ⟨x, by rw [hl']; exact List.mem_append_left _ hrec, x1, x2, x3, ?_, f1, f2⟩
  rw [(f3 ep' .refl).1]
  have : e.m.hasCb = m3.hasCb := s3.hasCb
  rw [this]

/-! ### Examples -/

/-- Every endpoint is a new one (N1 = 2, T1 = 100 ms, responses are kept for 1 s). -/
def exNet : Net := fun _ => exEp

theorem exNet_reached : NetReached exNet := .start _ fun _ => ⟨_, _, _, _, _, _, rfl⟩

/-- Three addresses. -/
def exA : Sockaddr := .inet 0x0a000001 8805
def exB : Sockaddr := .inet 0x0a000002 8805
def exC : Sockaddr := .inet 0x0a000003 8805

/-- A network that is found by running it, with what a check says about it, and about the endpoints that nothing happened to. -/
theorem net_found {ops : List NetOp} (as : List Sockaddr) (check : Net → Bool) (h : (netExec ops exNet).any check = true)
    (has : ops.map NetOp.where ⊆ as) :
    ∃ w, NetReached w ∧ check w = true ∧ ∀ a, a ∉ as → w a = exEp := by
  cases hw : netExec ops exNet with
  | none => rw [hw] at h; cases h
  | some w =>
    rw [hw] at h
    obtain ⟨h1, h2⟩ := netExec_reached exNet_reached hw
    exact ⟨w, h1, h, fun a ha => h2 a fun hx => ha (has hx)⟩

/-- What is checked of all these networks: applications are proper, and answer requests; sequence numbers of `a` are fresh (or not). -/
def goodB (as : List Sockaddr) (w : Net) : Bool := w.properB as && as.all fun a => responsiveB (w a).log

theorem goodB_ok {as : List Sockaddr} {w : Net} (h : goodB as w = true) (h0 : ∀ a, a ∉ as → w a = exEp) : Proper w ∧ Responsive w := by
  unfold goodB at h
  rw [Bool.and_eq_true] at h
  refine ⟨Net.properB_ok h.1 fun a ha => by rw [h0 a ha]; rfl, responsiveB_ok fun a => ?_⟩
  by_cases ha : a ∈ as
  · exact List.all_eq_true.1 h.2 a ha
  · rw [h0 a ha]; rfl

/-- Whether the sequence numbers are fresh. -/
def freshB (ep : Ep) : Bool := decide (ep.resets = 0 ∧ ep.draws < 2 ^ 24)

/-- The resp_cb() calls for received responses, with the address to which the request was sent and the one from which the
response came. -/
def matchedAt (log : List Event) : List (Nat × Nat × Sockaddr × Sockaddr) :=
  log.flatMap fun e => match e with
    | .respCb id (some k) _ => log.flatMap fun e => match e with
      | .passed i _ _ m => if i = id then log.filterMap fun e => match e with
        | .received j x => if j = k then some (id, k, m.remote, x.remote) else none
        | _ => none else []
      | _ => []
    | _ => []

/-- A sends a Heartbeat Request, with a resp_cb(), to B, which answers it. -/
def exBeat : List NetOp :=
  [.at exA (.app (.bind true (.tx { exReq with remote := exB } true .done .done))), .at exB (.app (.bind true .done)),
   .deliver exA exB exOctets [], .deliver exB exA (heartbeatRespOctets 1 2208988800) []]

theorem exBeat_found : ((netExec exBeat exNet).any fun w => goodB [exA, exB] w && freshB (w exA) &&
    decide (matchedAt (w exA).log = [(0, 1, exB, exB)])) = true := by decide +kernel

theorem matchedAt_mem {log : List Event} {id k r s} (h : (id, k, r, s) ∈ matchedAt log) :
    ∃ t n1 t1 m x, Event.respCb id (some k) t ∈ log ∧ Event.passed id n1 t1 m ∈ log ∧ Event.received k x ∈ log ∧
      m.remote = r ∧ x.remote = s := by
  unfold matchedAt at h
  obtain ⟨e, he, h⟩ := List.mem_flatMap.1 h
  split at h
  · rename_i id' k' t
    obtain ⟨e', he', h⟩ := List.mem_flatMap.1 h
    split at h
    · rename_i i n1 t1 m
      split at h
      · rename_i hi
        obtain ⟨e2, he2, h⟩ := List.mem_filterMap.1 h
        split at h
        · rename_i j x
          split at h
          · rename_i hj
            cases h
            subst hi hj
            exact ⟨t, n1, t1, m, x, he, he', he2, rfl, rfl⟩
          · cases h
        · cases h
      · cases h
    · cases h
  · cases h

theorem matchedAt_first {log : List Event} {id k r s l} (h : matchedAt log = (id, k, r, s) :: l) :
    ∃ t n1 t1 m x, Event.respCb id (some k) t ∈ log ∧ Event.passed id n1 t1 m ∈ log ∧ Event.received k x ∈ log ∧
      m.remote = r ∧ x.remote = s :=
  matchedAt_mem (by rw [h]; exact .head _)

theorem freshB_ok {ep : Ep} (h : freshB ep = true) : ep.freshSeqs := by simpa [freshB, Ep.freshSeqs] using h

/-- The hypotheses of C83 are met. -/
example : ∃ w, NetReached w ∧ Proper w ∧ Responsive w ∧ (w exA).freshSeqs ∧ ∃ t, Event.respCb 0 (some 1) t ∈ (w exA).log := by
  obtain ⟨w, h1, h2, h3⟩ := net_found [exA, exB] _ exBeat_found (by decide)
  simp only [Bool.and_eq_true, decide_eq_true_eq] at h2
  obtain ⟨⟨h4, h5⟩, h6⟩ := h2
  obtain ⟨h7, h8⟩ := goodB_ok h4 h3
  obtain ⟨t, _, _, _, _, h9, _⟩ := matchedAt_first h6
  exact ⟨w, h1, h7, h8, freshB_ok h5, t, h9⟩

/-- A sends a Heartbeat Request to B.  Before the response arrives, it sets the counter back and sends one to C, with the same
sequence number. -/
def exReused : List NetOp :=
  [.at exA (.app (.bind true (.tx { exReq with remote := exB } true .done .done))), .at exB (.app (.bind true .done)),
   .deliver exA exB exOctets [],
   .at exA (.app (.setSeq 0 (.tx { exReq with remote := exC } true .done .done))),
   .deliver exB exA (heartbeatRespOctets 1 2208988800) []]

theorem exReused_found : ((netExec exReused exNet).any fun w => goodB [exA, exB] w &&
    decide (matchedAt (w exA).log = [(1, 2, exC, exB)])) = true := by decide +kernel

/-- C83: that no sequence number was used twice is needed: otherwise a late response is taken as the response to
another request, that was sent to someone else. -/
theorem C83_reused_number : ∃ w a id k t n1 t1 m x, NetReached w ∧ Proper w ∧ Responsive w ∧
    Event.respCb id (some k) t ∈ (w a).log ∧ Event.passed id n1 t1 m ∈ (w a).log ∧ Event.received k x ∈ (w a).log ∧
    x.remote ≠ m.remote := by
  obtain ⟨w, h1, h2, h3⟩ := net_found [exA, exB] _ exReused_found (by decide)
  simp only [Bool.and_eq_true, decide_eq_true_eq] at h2
  obtain ⟨h4, h6⟩ := h2
  obtain ⟨h7, h8⟩ := goodB_ok h4 h3
  obtain ⟨t, n1, t1, m, x, g1, g2, g3, g4, g5⟩ := matchedAt_first h6
  exact ⟨w, exA, _, _, t, n1, t1, m, x, h1, h7, h8, g1, g2, g3, by rw [g4, g5]; decide⟩

/-- A sends a Heartbeat Request to B; C sends a response to it. -/
def exUnasked : List NetOp :=
  [.at exA (.app (.bind true (.tx { exReq with remote := exB } true .done .done))),
   .at exC (.app (.bind true (.tx { exAnswer with remote := exA } true .done .done))),
   .deliver exC exA (heartbeatRespOctets 1 7) []]

theorem exUnasked_found : ((netExec exUnasked exNet).any fun w => w.properB [exA, exC] && freshB (w exA) &&
    decide (matchedAt (w exA).log = [(0, 1, exB, exC)])) = true := by decide +kernel

/-- C83: that applications answer only requests that they got is needed: a response with the right sequence number is taken as
the response to a request that was sent to someone else. -/
theorem C83_unasked_response : ∃ w a id k t n1 t1 m x, NetReached w ∧ Proper w ∧ (w a).freshSeqs ∧
    Event.respCb id (some k) t ∈ (w a).log ∧ Event.passed id n1 t1 m ∈ (w a).log ∧ Event.received k x ∈ (w a).log ∧
    x.remote ≠ m.remote := by
  obtain ⟨w, h1, h2, h3⟩ := net_found [exA, exC] _ exUnasked_found (by decide)
  simp only [Bool.and_eq_true, decide_eq_true_eq] at h2
  obtain ⟨⟨h4, h5⟩, h6⟩ := h2
  obtain ⟨t, n1, t1, m, x, g1, g2, g3, g4, g5⟩ := matchedAt_first h6
  exact ⟨w, exA, _, _, t, n1, t1, m, x, h1, Net.properB_ok h4 fun a ha => (by rw [h3 a ha]; rfl), freshB_ok h5,
    g1, g2, g3, by rw [g4, g5]; decide⟩

/-- An Association Setup Response, of B to A, with Cause "Request accepted". -/
def exAccepts : PMsg :=
  { remote := exA, isResponse := true, h := { version := 1, type := 6, seq := 1 }, causeAt := some 1, nodeIdAt := some 0
    ies := [[.leaf (.nodeId (.v4 (.inet 0x0a000002 0)))], [.leaf (.cause 1)], [.leaf (.u32 9)], [], []] }

/-- A associates with B. -/
def exAssoc : List NetOp :=
  [.at exA (.app (.bind true (.newPeer 7 exB (.setAssocCb 7 true (.associate 7 true .done))))), .at exB (.app (.bind true .done)),
   .deliver exA exB (assocReqOctets (.v4 (.inet 0x7f000002 0)) 2208988800 1) [{ onRx := .tx exAccepts true .done .done }],
   .deliver exB exA [32, 6, 0, 26, 0, 0, 1, 0, 0, 60, 0, 5, 0, 0x7f, 0, 0, 2, 0, 19, 0, 1, 1, 0, 96, 0, 4, 0, 0, 0, 9] []]

theorem exAssoc_found : ((netExec exAssoc exNet).any fun w => goodB [exA, exB] w && freshB (w exA) &&
    ((w exA).peer? 7).any fun p => p.isAssociated && decide (p.remote = exB)) = true := by decide +kernel

/-- The hypotheses of C84 are met. -/
example : ∃ w p, NetReached w ∧ Proper w ∧ Responsive w ∧ (w exA).freshSeqs ∧ (w exA).peer? 7 = some p ∧ p.isAssociated = true ∧
    p.remote = exB := by
  obtain ⟨w, h1, h2, h3⟩ := net_found [exA, exB] _ exAssoc_found (by decide)
  simp only [Bool.and_eq_true] at h2
  obtain ⟨⟨h4, h5⟩, h6⟩ := h2
  obtain ⟨h7, h8⟩ := goodB_ok h4 h3
  cases hp : (w exA).peer? 7 with
  | none => rw [hp] at h6; cases h6
  | some p =>
    rw [hp] at h6
    simp only [Option.any_some, Bool.and_eq_true, decide_eq_true_eq] at h6
    exact ⟨w, p, h1, h7, h8, freshB_ok h5, hp, h6⟩

/-- Requests of A that a response of B answers: request, response, octets of the response. -/
def answeredBy (a : Sockaddr) (log log' : List Event) : List (Nat × Nat × List UInt8) :=
  log.flatMap fun e => match e with
    | .passed id _ _ m => if m.isResponse then [] else log'.flatMap fun e => match e with
      | .passed id' _ _ resp => if resp.isResponse = true ∧ resp.h.seq = m.h.seq then log'.filterMap fun e => match e with
        | .send .tx i r o _ _ => if i = id' ∧ r = a then some (id, id', o) else none
        | _ => none else []
      | _ => []
    | _ => []

theorem answeredBy_mem {a log log' id id' o} (h : (id, id', o) ∈ answeredBy a log log') :
    ∃ n1 t1 m n1' t1' resp ok t, Event.passed id n1 t1 m ∈ log ∧ m.isResponse = false ∧ Event.passed id' n1' t1' resp ∈ log' ∧
      resp.isResponse = true ∧ resp.h.seq = m.h.seq ∧ Event.send .tx id' a o ok t ∈ log' := by
  unfold answeredBy at h
  obtain ⟨e, he, h⟩ := List.mem_flatMap.1 h
  split at h
  · rename_i m
    by_cases hm : m.isResponse = true
    · rw [if_pos hm] at h; cases h
    · rw [if_neg hm] at h
      obtain ⟨e', he', h⟩ := List.mem_flatMap.1 h
      split at h
      · rename_i resp
        by_cases hr : resp.isResponse = true ∧ resp.h.seq = m.h.seq
        · rw [if_pos hr] at h
          obtain ⟨e2, he2, h'⟩ := List.mem_filterMap.1 h
          clear h
          split at h'
          · split at h'
            · rename_i hi
              obtain ⟨rfl, rfl⟩ := hi
              cases h'
              exact ⟨_, _, m, _, _, resp, _, _, he, by simpa using hm, he', hr.1, hr.2, he2⟩
            · cases h'
          · cases h'
        · rw [if_neg hr] at h; cases h
      · cases h
  · cases h

/-- B has answered; the answer is underway. -/
theorem exAnswered_found : ((netExec (exAssoc.take 3) exNet).any fun w => goodB [exA, exB] w && freshB (w exA) && (w exA).sock &&
    ((w exA).reqs.any fun e => decide (e.id = 0)) &&
    ((answeredBy exA (w exA).log (w exB).log).any fun x => decide (x.1 = 0))) = true := by decide +kernel

/-- The hypotheses of C85 about a response are met. -/
example : ∃ w id' n1 t1 m n1' t1' resp o ok t, NetReached w ∧ Proper w ∧ (w exA).freshSeqs ∧ Event.passed 0 n1 t1 m ∈ (w exA).log ∧
    m.isResponse = false ∧ (w exA).pending 0 ∧ Event.passed id' n1' t1' resp ∈ (w exB).log ∧ resp.isResponse = true ∧
    resp.h.seq = m.h.seq ∧ Event.send .tx id' exA o ok t ∈ (w exB).log ∧ (w exA).sock = true := by
  obtain ⟨w, h1, h2, h3⟩ := net_found [exA, exB] _ exAnswered_found (by decide)
  simp only [Bool.and_eq_true] at h2
  obtain ⟨⟨⟨⟨h4, h5⟩, h6⟩, h7⟩, h8⟩ := h2
  obtain ⟨e, he, hid⟩ := List.any_eq_true.1 h7
  obtain ⟨⟨i, id', o⟩, hx, hi⟩ := List.any_eq_true.1 h8
  obtain ⟨n1, t1, m, n1', t1', resp, ok, t, g1, g2, g3, g4, g5, g6⟩ := answeredBy_mem hx
  cases of_decide_eq_true hi
  exact ⟨w, id', n1, t1, m, n1', t1', resp, o, ok, t, h1, (goodB_ok h4 h3).1, freshB_ok h5, g1, g2, ⟨e, he, of_decide_eq_true hid⟩,
    g3, g4, g5, g6, h6⟩

end Verif.Props
