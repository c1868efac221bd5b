/-
Properties of the endpoint: responses and the requests that they answer (C48, C49), sequence numbers of
pending requests (C54).
-/
import Verif.PropsEndpoint3

namespace Verif

/-- A freed message is not pending any more, now and later. -/
theorem Reached.freed_not_pending {ep : Ep} (h : Reached ep) {id} (hf : Event.freed id ∈ ep.log) : ¬ ep.pending id := by
  intro hp
  obtain ⟨e, he⟩ := pending_iff.mp hp
  obtain ⟨n1, t1, m, o, hl, _⟩ := h.inv.request he rfl
  have := hl.tally.frees
  have h1 : frees id ep.log ≥ 1 := by
    unfold frees
    exact List.countP_pos_iff.mpr ⟨_, hf, by simp⟩
  rw [this] at h1
  simp [Stage.frees] at h1

theorem Later.log {ep ep' : Ep} (h : Later ep ep') (h0 : Reached ep) : ∃ l, ep'.log = l ++ ep.log := (h.steps h0).log

theorem msgInvalidateCtx_eq (m : PMsg) (fi : Nat) : msgInvalidateCtx m fi = { m with ctx := m.ctx.without fi } := by
  unfold msgInvalidateCtx Ctx.without
  by_cases h1 : m.ctx.sessionFi = some fi <;> by_cases h2 : m.ctx.peerFi = some fi <;> simp [h1, h2]

/-- The event that the message was passed stays in the log. -/
theorem tx_passed {ep ep' : Ep} {m io cb} (hcb : Calls cb) (h : ep.tx m io cb = .ok ep') :
    ∃ l, ep'.log = l ++ (.passed ep.nextId ep.n1 ep.t1 (ep.outgoing m) :: ep.log) := by
  obtain ⟨ep1, o, ⟨l0, rfl, -⟩, h⟩ := tx_cases h
  have hf : ∀ {a b : Ep} {m'}, a.failCb ep.nextId m' cb = .ok b → ∃ l, b.log = l ++ a.log := by
    intro a b m' hab
    unfold Ep.failCb at hab
    split at hab
    · obtain ⟨x, hx, rfl⟩ := using_ok hcb hab
      obtain ⟨l, hl⟩ := (hx.2 {}).log
      exact ⟨l ++ [_], by dsimp only at hl ⊢; rw [hl]; simp [Ep.note]; rfl⟩
    · cases hab; exact ⟨[], rfl⟩
  have hb : (ep.begun m).log = ep.log := by unfold Ep.begun; split <;> rfl
  rcases h with ⟨ep2, ep3, e, h2, h3, rfl⟩ | ⟨ep2, h2, rfl⟩ | rfl
  · obtain ⟨l, hl⟩ := hf h2
    obtain ⟨rfl, -⟩ := releaseUses_ok h3
    exact ⟨_ :: _ :: l ++ l0, by simp only [Ep.note, Ep.logs, hl, hb, List.append_assoc, List.cons_append]; rfl⟩
  · obtain ⟨l, hl⟩ := hf h2
    exact ⟨_ :: l ++ l0, by simp only [Ep.note, Ep.logs, hl, hb, List.append_assoc, List.cons_append]; rfl⟩
  · refine ⟨.returned ep.nextId none :: l0, ?_⟩
    unfold Ep.enqueue
    split <;> simp only [Ep.note, Ep.logs, hb, List.cons_append]

/-- osmo_pfcp_endpoint_tx(), called by the application. -/
theorem step_tx {ep ep' : Ep} {m io} {a : App} (h : (Op.app (.tx m io a .done)).step ep = .ok ep') :
    (ep.takeUses m.ctx.uses).tx m io a.run = .ok ep' := by
  simp only [Op.step, App.run] at h
  split at h
  · cases h
  · obtain ⟨x, hx, h⟩ := Res.bind_eq_ok h
    cases h
    exact hx

namespace Props
open Spec

/-! ### C54: unique sequence numbers -/

/-- C54.  As long as fewer than 2^24 - 1 sequence numbers are taken while a request is pending, and the
counter is not set by the application, different pending requests have different sequence numbers. -/
theorem C54_unique {ep : Ep} (h : Reached ep) (hw : ep.seqWindow) {e e' : QEntry} (he : e ∈ ep.reqs) (he' : e' ∈ ep.reqs)
    (hs : e.m.h.seq = e'.m.h.seq) : e = e' := by
  have hi := h.seqInv
  obtain ⟨w1, w2⟩ := hw e he
  obtain ⟨w1', w2'⟩ := hw e' he'
  have hd : e.draw = e'.draw := by
    apply Classical.byContradiction
    intro hne
    have d1 := hi.drawn e he
    have d2 := hi.drawn e' he'
    rw [w1] at d1
    rw [w1'] at d2
    exact Drawn.ne d1 d2 rfl hne w2 w2' hs
  have hid := hi.distinct e he e' he' hd
  have l1 := look_of_mem h.inv.nodupReqs he
  have l2 := look_of_mem h.inv.nodupReqs he'
  dsimp only at l1 l2
  rw [hid, l2] at l1
  cases l1; rfl

/-- C54: so a response is taken as the answer to the request that has its sequence number. -/
theorem C54_response_identifies_request {ep : Ep} (h : Reached ep) (hw : ep.seqWindow) {m : PMsg} (hm : m.isResponse = true)
    {e} (he : e ∈ ep.reqs) (hs : e.m.h.seq = m.h.seq) : queueFind ep.reqs m = some e := by
  obtain ⟨x, hx, _⟩ := queueFind_unique (reqs_kind h hm) he hs fun x hx h' => by
    rw [C54_unique h hw hx he (by rw [h', hs])]
  obtain ⟨x1, x2⟩ := queueFind_some hx
  rw [hx, C54_unique h hw x1 he (by rw [x2, hs])]

/-- C54: every sequence number is between 1 and 2^24 - 1. -/
theorem C54_in_range {ep : Ep} (h : Reached ep) (hw : ep.seqWindow) {e : QEntry} (he : e ∈ ep.reqs) :
    1 ≤ e.m.h.seq ∧ e.m.h.seq < 2 ^ 24 := by
  obtain ⟨_, _, h3⟩ := h.seqInv.drawn e he
  obtain ⟨a, b, _⟩ := h3 (hw e he).1
  exact ⟨a, b⟩

/-- Three requests. -/
def exSend3 : List Op := [.app (.bind true (.tx exReq true .done (.tx exReq true .done (.tx exReq true .done .done))))]

/-- The hypotheses are met: three requests are pending, with sequence numbers 3, 2, 1. -/
example : ∃ ep, exec exSend3 exEp = .ok ep ∧ Reached ep ∧ ep.seqWindow ∧ ep.reqs.map (·.m.h.seq) = [3, 2, 1] := by
  refine ⟨_, rfl, exEp_reached.exec (ops := exSend3) rfl, ?_, rfl⟩
  intro x hx
  rcases hx with _ | ⟨_, _ | ⟨_, _ | ⟨_, hx⟩⟩⟩
  · exact ⟨rfl, by decide⟩
  · exact ⟨rfl, by decide⟩
  · exact ⟨rfl, by decide⟩
  · cases hx

/-- C54: if the application sets the counter back, two pending requests can have the same sequence
number. -/
theorem C54_needs_window :
    ∃ ep e e', exec [.app (.bind true (.tx exReq true .done (.setSeq 0 (.tx exReq true .done .done))))] exEp = .ok ep ∧
      e ∈ ep.reqs ∧ e' ∈ ep.reqs ∧ e.id ≠ e'.id ∧ e.m.h.seq = e'.m.h.seq :=
  ⟨_, _, _, rfl, .head _, .tail _ (.head _), by decide, rfl⟩

/-! ### C48: a response ends its request -/

/-- C48.  When a response arrives that has the sequence number of a pending request, and of no other one
(see C54), then the resp_cb() of this request is called with the response, once and never again; the request
is no longer pending; and it is freed. -/
theorem C48_response_ends_request {ep ep' : Ep} (h : Reached ep) {m r} (hr : ep.handleRx m r = .ok ep')
    (hm : m.isResponse = true) {e} (he : e ∈ ep.reqs) (hs : e.m.h.seq = m.h.seq)
    (hu : ∀ x ∈ ep.reqs, x.m.h.seq = m.h.seq → x = e) :
    ¬ ep'.pending e.id ∧ frees e.id ep'.log = 1 ∧
    ∀ ep2, Later ep' ep2 → respCalls e.id ep2.log = (if e.m.hasCb then [some ep.nextId] else []) ∧ ¬ ep2.pending e.id := by
  obtain ⟨hb, tail, ⟨l, hl, hx⟩, b0, -, -, -, c1, c2, c3⟩ := h.rxEvents hr
  have hfe : queueFind ep.reqs m = some e := by
    cases hf : queueFind ep.reqs m with
    | none => exact absurd hs ((queueFind_none (reqs_kind h hm)).mp hf e he)
    | some x =>
      obtain ⟨h1, h2⟩ := queueFind_some hf
      rw [hu x h1 h2]
  obtain ⟨ht, hnp⟩ := c2 e hm hfe
  have h' : Reached ep' := .rx m r h hr
  have hnp' : ¬ ep'.pending e.id := by rintro ⟨x, hx, hid⟩; exact hnp x hx hid
  -- the request was passed
  obtain ⟨n1, t1, m0, o, hlf, hsame, hrq, _, _, _, _⟩ := h.inv.request (look_of_mem h.inv.nodupReqs he) rfl
  have hpass := (hlf.tally.info n1 t1 m0).mpr rfl
  have hpass' : Event.passed e.id n1 t1 m0 ∈ ep'.log := by rw [hl]; exact List.mem_append_right _ hpass
  have hgood := hlf.tally.good
  have hfree : frees e.id ep'.log = 1 := by
    simp only [Stage.good] at hgood
    obtain ⟨-, -, g1, g2⟩ := hgood
    rcases C58_exactly_once_partial h' hpass' g1 g2 with ⟨hq, _⟩ | ⟨_, hq⟩
    · rcases hq with hq | ⟨x, hx, hid⟩
      · exact absurd hq hnp'
      · obtain ⟨_, _, m1, _, hlx, _, hxr, _⟩ := h'.inv.response (look_of_mem h'.inv.nodupResps hx)
        rw [hid] at hlx
        have := (hlx.tally.info n1 t1 m0).mp hpass'
        simp only [Stage.info, Option.some.injEq, Prod.mk.injEq] at this
        rw [this.2.2, hrq] at hxr
        cases hxr
    · exact hq
  refine ⟨hnp', hfree, fun ep2 hlater => ?_⟩
  have h2 := hlater.reached h'
  obtain ⟨l2, hl2⟩ := hlater.log h'
  constructor
  · by_cases hc : e.m.hasCb = true
    · rw [if_pos hc]
      have hmem : some ep.nextId ∈ respCalls e.id ep2.log := by
        have h1 : some ep.nextId ∈ respCalls e.id l := by
          rw [respCalls_rx]
          refine ⟨ep.now, ?_⟩
          rw [hx, ht, if_pos hc]
          simp
        rw [hl2, hl]
        simp only [respCalls, List.filterMap_append, List.mem_append] at h1 ⊢
        exact .inr (.inl h1)
      have hlen := C47_at_most_once h2 e.id
      match hcalls : respCalls e.id ep2.log, hmem, hlen with
      | [x], hmem, _ => rw [List.mem_singleton.mp hmem]
      | _ :: _ :: _, _, hlen => simp at hlen
    · rw [if_neg hc]
      apply C47_none h2
      intro n1' t1' m1 hp1
      have hp2 : Event.passed e.id n1 t1 m0 ∈ ep2.log := by rw [hl2]; exact List.mem_append_right _ hpass'
      obtain ⟨s, _, ht2, _⟩ := h2.stage e.id
      have e1 := (ht2.info _ _ _).mp hp1
      have e2 := (ht2.info _ _ _).mp hp2
      rw [e1] at e2
      simp only [Option.some.injEq, Prod.mk.injEq] at e2
      rw [e2.2.2]
      have hcc : m0.hasCb = false := by rw [← hsame.hasCb]; simpa using hc
      simp [PMsg.wantsCb, hcc]
  · apply h2.freed_not_pending
    have : ∃ x ∈ ep'.log, x = Event.freed e.id := by
      have hp : 0 < frees e.id ep'.log := by omega
      unfold frees at hp
      obtain ⟨x, hx, hxx⟩ := List.countP_pos_iff.mp hp
      refine ⟨x, hx, ?_⟩
      cases x <;> simp at hxx
      rw [hxx]
    obtain ⟨x, hx, rfl⟩ := this
    rw [hl2]
    exact List.mem_append_right _ hx

/-- C48: a further copy of the response finds no request - whenever it arrives, as long as the sequence
number is not in use again (C54): neither resp_cb() of any request is called, nor is a request passed to
rx_msg_cb(). -/
theorem C48_second_copy {ep ep' ep2 ep3 : Ep} (h : Reached ep) {m r} (hr : ep.handleRx m r = .ok ep')
    (hm : m.isResponse = true) {e} (he : e ∈ ep.reqs) (hs : e.m.h.seq = m.h.seq) (hw : ep.seqWindow)
    (hl : Later ep' ep2) (hw2 : ep2.seqWindow) (hw3 : ep2.resets = ep.resets ∧ ep2.draws < e.draw + (2 ^ 24 - 1))
    {m2 r2} (hm2 : m2.isResponse = true) (hs2 : m2.h.seq = m.h.seq) (hr2 : ep2.handleRx m2 r2 = .ok ep3) :
    ∃ l, ep3.log = l ++ ep2.log ∧ dispatches l = [(ep2.nextId, none)] ∧ ∀ id k, some k ∉ respCalls id l := by
  have h' : Reached ep' := .rx m r h hr
  have h2 := hl.reached h'
  obtain ⟨hnp, _, hlater⟩ := C48_response_ends_request h hr hm he hs fun x hx hxs =>
    C54_unique h hw hx he (by rw [hxs, hs])
  have hnp2 := (hlater ep2 hl).2
  -- no pending request has the number
  have hpast : Past e.id e.m.h.seq e.draw e.epoch (ep2, {}) := by
    have h0 : Past e.id e.m.h.seq e.draw e.epoch (ep, {}) := by
      obtain ⟨_, _, _, _, _, _, _, _, _, hlt, _⟩ := h.inv.request (look_of_mem h.inv.nodupReqs he) rfl
      exact ⟨h.seqInv.drawn e he, hlt, fun x hx hne hd => hne (h.seqInv.distinct x hx e he hd)⟩
    have s1 : Steps (ep, {}) (ep', {}) := (handleRx_tops hr h.busy).2
    exact (s1.trans (hl.steps h')).invariant (I := Past e.id e.m.h.seq e.draw e.epoch) (fun _ _ h hs => h.step hs) h0
  have hnone : ∀ x ∈ ep2.reqs, x.m.h.seq ≠ m2.h.seq := by
    intro x hx hxs
    have hne : x.id ≠ e.id := fun hid => hnp2 ⟨x, hx, hid⟩
    obtain ⟨p1, _, p3⟩ := hpast
    obtain ⟨v1, v2⟩ := hw2 x hx
    have d2 := h2.seqInv.drawn x hx
    rw [v1] at d2
    rw [(hw e he).1, ← hw3.1] at p1
    exact Drawn.ne p1 d2 rfl (fun hd => p3 x hx hne hd.symm) hw3.2 v2 (by rw [hs, hxs, hs2])
  obtain ⟨hb, tail, ⟨l, hl2, hx⟩, b0, -, -, -, c1, -, -⟩ := h2.rxEvents hr2
  have ht := c1 (by rw [if_pos hm2]; exact (queueFind_none (reqs_kind h2 hm2)).mpr hnone)
  obtain ⟨l', hl', _, _, d3, _⟩ := C51_dispatch_rule h2 hr2
  have hll : l' = l := List.append_cancel_right (hl'.symm.trans hl2)
  subst hll
  refine ⟨l', hl', d3 hm2 hnone, ?_⟩
  intro id k hk
  rw [respCalls_rx] at hk
  obtain ⟨t, hk⟩ := hk
  rw [hx, ht] at hk
  simp only [List.cons_append, List.mem_cons, List.mem_append, List.not_mem_nil, or_false, reduceCtorEq, false_or] at hk
  rcases hk with hk | hk
  · obtain ⟨_, _, _, _, _, hk⟩ := b0 _ hk
    cases hk
  · unfold ctxEvent at hk
    split at hk
    · cases List.mem_singleton.mp hk
    · cases hk

/-- The response to the first of three requests arrives, then again. -/
example : ∃ ep, exec (exSend3 ++ exResp ++ exResp) exEp = .ok ep ∧ respCalls 0 ep.log = [some 3] ∧
    dispatches ep.log = [(4, none)] ∧ ep.reqs.map (·.id) = [2, 1] := by
  set_option maxRecDepth 100000 in exact ⟨_, rfl, rfl, rfl, rfl⟩

/-! ### C49: responses and peers -/

/-- C49, as far as it holds: a resp_cb() call with response `k`, or a call of set_msg_ctx_cb() or rx_msg_cb()
with a request, is about a request that the endpoint sent and a received response with the same sequence
number; a cached response is re-sent, to the address that it was first sent to, because a request with its
sequence number was received.  That the addresses are the same is *not* checked, see
`C49_response_from_other_peer` and `C49_duplicate_from_other_peer`. -/
theorem C49_matching_partial {ep : Ep} (h : Reached ep) :
    (∀ id k t, Event.respCb id (some k) t ∈ ep.log → Answers ep.log k id) ∧
    (∀ id k, Event.setCtx k (some id) ∈ ep.log → Answers ep.log k id) ∧
    (∀ id k, Event.dispatch k (some id) ∈ ep.log → Answers ep.log k id) ∧
    (∀ k id r o ok t, Event.send (.cachedReply k) id r o ok t ∈ ep.log → Repeats ep.log k id r) :=
  ⟨fun _ _ _ he => h.refInv.ev _ he, fun _ _ he => h.refInv.ev _ he, fun _ _ he => h.refInv.ev _ he,
   fun _ _ _ _ _ _ he => h.refInv.ev _ he⟩

/-- C49 is false for responses: a response from another address (even another port) completes the request,
and its resp_cb() gets the response. -/
theorem C49_response_from_other_peer :
    ∃ ep n1 t1 m rx, exec (exSend ++ [.rx exOther exRespOctets []]) exEp = .ok ep ∧
      Event.passed 0 n1 t1 m ∈ ep.log ∧ m.remote = exRemote ∧
      Event.received 1 rx ∈ ep.log ∧ rx.remote = exOther ∧ exOther ≠ exRemote ∧
      respCalls 0 ep.log = [some 1] ∧ ep.reqs.map (·.id) = [] := by
  set_option maxRecDepth 100000 in
  exact ⟨_, _, _, _, _, rfl, .tail _ (.tail _ (.tail _ (.tail _ (.tail _ (.tail _ (.head _)))))), rfl,
    .tail _ (.tail _ (.tail _ (.head _))), rfl, by decide, rfl, rfl⟩

/-- C49 is false for requests: after a response with sequence number 1 was sent to one peer, a (first) request
with sequence number 1 from another peer is taken as a duplicate: it is not passed to rx_msg_cb(), and the first
peer gets the cached response. -/
theorem C49_duplicate_from_other_peer :
    ∃ ep n1 t1 m rx, exec [.app (.bind true (.tx exAnswer true .done .done)), .rx exOther exDelOctets []] exEp = .ok ep ∧
      Event.passed 0 n1 t1 m ∈ ep.log ∧ m.remote = exRemote ∧
      Event.received 1 rx ∈ ep.log ∧ rx.remote = exOther ∧ rx.h.type = 54 ∧
      dispatches ep.log = [] ∧ cachedReplies ep.log = [(1, 0, exRemote, [32, 2, 0, 12, 0, 0, 1, 0, 0, 96, 0, 4, 0, 0, 0, 7], true)] := by
  set_option maxRecDepth 100000 in
  exact ⟨_, _, _, _, _, rfl, .tail _ (.tail _ (.tail _ (.tail _ (.tail _ (.head _))))), rfl,
    .tail _ (.tail _ (.head _)), rfl, rfl, rfl, rfl⟩

/-! ### C56: recovery time stamp -/

/-- C56: the recovery time stamp is the time of creation, in seconds since 1900, modulo 2^32, at all times. -/
theorem C56_fixed {cfg n1 t1 keepResp unixTime now} {ep : Ep} (h : Later (Ep.create cfg n1 t1 keepResp unixTime now) ep) :
    ep.rts = (unixTime + 2208988800) % 2 ^ 32 := by
  have hs := h.steps (.create ..)
  have := hs.invariant (I := fun x => x.1.rts = (unixTime + 2208988800) % 2 ^ 32) ?_ ?_
  · exact this
  · intro a b hi hm
    cases hm <;> simp_all [Ep.logs, Ep.note, Ep.dropCtx, Ep.closed, Ep.enqueue]
    case txQueued => split <;> simp_all
  · show (unixTime % 2 ^ 32 + 2208988800) % 2 ^ 32 = _
    omega

/-- C56: osmo_pfcp_endpoint_tx_heartbeat_req() sends a Heartbeat Request with this value, once, with the next
sequence number.  (Heartbeat Responses: C52.) -/
theorem C56_heartbeat_request {ep ep' : Ep} {remote io} (hs : ep.sock = true) (h : ep.txHeartbeat remote io = .ok ep') :
    ep'.log = .send .heartbeatReq ep.nextId remote (heartbeatReqOctets (nextSeqNr ep.seq).toNat ep.rts) io ep.now :: ep.log ∧
      ep'.seq = nextSeqNr ep.seq := by
  unfold Ep.txHeartbeat Ep.draw Ep.txDirect Ep.sendMsg at h
  have := heartbeatReq_encode remote ep.rts (nextSeqNr ep.seq).toNat
  simp only [this, hs, if_true, Res.bind] at h
  cases h
  exact ⟨rfl, rfl⟩

/-- Unix time 0 is NTP time 2208988800; in February 2036 the value wraps around. -/
example : (0 + 2208988800) % 2 ^ 32 = 2208988800 ∧ (2085978496 + 2208988800) % 2 ^ 32 = 0 := by decide

/-! ### C57: context invalidation -/

/-- C57.  After osmo_pfcp_endpoint_invalidate_ctx(), no queued message refers to the FSM instance; each queued
message is as before, except for the context; and nothing else of the endpoint changes. -/
theorem C57_invalidated (ep : Ep) (fi : Nat) :
    (∀ e ∈ (ep.invalidate fi).reqs ++ (ep.invalidate fi).resps, e.m.ctx.peerFi ≠ some fi ∧ e.m.ctx.sessionFi ≠ some fi) ∧
    (ep.invalidate fi).reqs = ep.reqs.map (fun e => { e with m := { e.m with ctx := e.m.ctx.without fi } }) ∧
    (ep.invalidate fi).resps = ep.resps.map (fun e => { e with m := { e.m with ctx := e.m.ctx.without fi } }) ∧
    { ep.invalidate fi with reqs := ep.reqs, resps := ep.resps } = ep.note (.invalidated fi) := by
  have hq : ∀ q : List QEntry, q.map (fun e => { e with m := msgInvalidateCtx e.m fi }) =
      q.map (fun e => { e with m := { e.m with ctx := e.m.ctx.without fi } }) := by
    intro q
    apply List.map_congr_left
    intro e _
    rw [msgInvalidateCtx_eq]
  refine ⟨?_, hq _, hq _, rfl⟩
  intro e he
  simp only [Ep.invalidate, Ep.dropCtx, Ep.note, ← List.map_append, hq, List.mem_map] at he
  obtain ⟨x, _, rfl⟩ := he
  simp only [Ctx.without]
  constructor
  · split <;> simp_all
  · split <;> simp_all

/-- C57: context that does not refer to the FSM instance is unchanged. -/
theorem C57_others_unchanged (c : Ctx) (fi : Nat) (h1 : c.peerFi ≠ some fi) (h2 : c.sessionFi ≠ some fi) : c.without fi = c := by
  simp [Ctx.without, h1, h2]

example : ({ peerFi := some 1, peerUse := some (5, 6), sessionFi := some 2, sessionUse := some (7, 8), respCb := some (.app 3) } : Ctx).without 1 =
    { sessionFi := some 2, sessionUse := some (7, 8), respCb := some (.app 3) } := by decide

/-! ### C59: Node ID -/

/-- C59: in a message that is passed to osmo_pfcp_endpoint_tx(), the Node ID, if there is one, is set to that of
the endpoint; the other IEs, the destination and the header are those of the caller, apart from the sequence number
of a request. -/
theorem C59_node_id_set {ep ep' : Ep} {m io} {a : App} (h : ep.tx m io a.run = .ok ep') :
    ∃ out, Event.passed ep.nextId ep.n1 ep.t1 out ∈ ep'.log ∧
      (∀ i, m.nodeIdAt = some i → i < m.ies.length → out.ies[i]? = some [.leaf (.nodeId ep.cfg.nodeId)]) ∧
      (∀ j, m.nodeIdAt ≠ some j → out.ies[j]? = m.ies[j]?) ∧ out.ies.length = m.ies.length ∧
      out.nodeIdAt = m.nodeIdAt ∧ out.remote = m.remote ∧ out.ctx = m.ctx ∧ out.isResponse = m.isResponse ∧
      out.encoded = m.encoded ∧
      out.h = if m.isResponse then m.h else { m.h with seq := (nextSeqNr ep.seq).toNat } := by
  refine ⟨ep.outgoing m, ?_, ?_⟩
  · obtain ⟨l, hl⟩ := tx_passed (run_goes a) h
    rw [hl]
    exact List.mem_append_right _ (.head _)
  · have : ∀ m' : PMsg, m'.ies = m.ies → m'.nodeIdAt = m.nodeIdAt → m'.remote = m.remote → m'.ctx = m.ctx →
        m'.isResponse = m.isResponse → m'.encoded = m.encoded →
        (∀ i, m.nodeIdAt = some i → i < m.ies.length → (m'.withNodeId ep.cfg.nodeId).ies[i]? = some [.leaf (.nodeId ep.cfg.nodeId)]) ∧
        (∀ j, m.nodeIdAt ≠ some j → (m'.withNodeId ep.cfg.nodeId).ies[j]? = m.ies[j]?) ∧
        (m'.withNodeId ep.cfg.nodeId).ies.length = m.ies.length ∧
        (m'.withNodeId ep.cfg.nodeId).nodeIdAt = m.nodeIdAt ∧ (m'.withNodeId ep.cfg.nodeId).remote = m.remote ∧
        (m'.withNodeId ep.cfg.nodeId).ctx = m.ctx ∧ (m'.withNodeId ep.cfg.nodeId).isResponse = m.isResponse ∧
        (m'.withNodeId ep.cfg.nodeId).encoded = m.encoded ∧ (m'.withNodeId ep.cfg.nodeId).h = m'.h := by
      intro m' h1 h2 h3 h4 h5 h6
      unfold PMsg.withNodeId
      cases hn : m.nodeIdAt with
      | none => simp [h1, h2, h3, h4, h5, h6, hn]
      | some i =>
        simp only [h1, h2, h3, h4, h5, h6, hn]
        refine ⟨?_, ?_, List.length_set .., trivial, trivial, trivial, trivial, trivial, trivial⟩
        · intro j hj hl
          cases hj
          simp [hl]
        · intro j hj
          rw [List.getElem?_set_ne]
          intro he
          exact hj (by rw [he])
    unfold Ep.outgoing
    by_cases hr : m.isResponse = true
    · rw [if_pos hr, if_pos hr]
      exact this m rfl rfl rfl rfl rfl rfl
    · rw [if_neg hr, if_neg hr]
      exact this { m with h := { m.h with seq := (nextSeqNr ep.seq).toNat } } rfl rfl rfl rfl rfl rfl

/-- C59, for all messages that are ever passed to osmo_pfcp_endpoint_tx(), by the application or by a CP peer. -/
theorem C59_every_message {ep : Ep} (h : Reached ep) {id n1 t1 out i} (hp : Event.passed id n1 t1 out ∈ ep.log)
    (hi : out.nodeIdAt = some i) (hlen : i < out.ies.length) : out.ies[i]? = some [.leaf (.nodeId ep.cfg.nodeId)] := by
  have := h.invariant (I := fun x => ∀ id n1 t1 out i, Event.passed id n1 t1 out ∈ x.1.log → out.nodeIdAt = some i →
    i < out.ies.length → out.ies[i]? = some [.leaf (.nodeId x.1.cfg.nodeId)]) ?_ ?_
  · exact this id n1 t1 out i hp hi hlen
  · intro a b hI hm
    have hout : ∀ (ep : Ep) (m : PMsg) i, (ep.outgoing m).nodeIdAt = some i → i < (ep.outgoing m).ies.length →
        (ep.outgoing m).ies[i]? = some [.leaf (.nodeId ep.cfg.nodeId)] := by
      intro ep m i
      have : ∀ m : PMsg, (m.withNodeId ep.cfg.nodeId).nodeIdAt = some i → i < (m.withNodeId ep.cfg.nodeId).ies.length →
          (m.withNodeId ep.cfg.nodeId).ies[i]? = some [.leaf (.nodeId ep.cfg.nodeId)] := by
        intro m
        unfold PMsg.withNodeId
        cases hn : m.nodeIdAt with
        | none => simp [hn]
        | some j =>
          simp only [Option.some.injEq, List.length_set]
          rintro rfl hl
          simp [hl]
      exact this _
    have href : ∀ {ep why id m l}, Refused ep why id m l → ∀ i n t o, Event.passed i n t o ∉ l := by
      rintro ep why id m l (⟨rfl, _⟩ | ⟨o, _, rfl⟩) i n t o hh
      · cases hh
      · cases List.mem_singleton.mp hh
    have hx : b.1.cfg = a.1.cfg ∧ ∀ id n1 t1 out, .passed id n1 t1 out ∈ b.1.log →
        .passed id n1 t1 out ∈ a.1.log ∨ ∃ m, out = a.1.outgoing m := by
      have hbl : ∀ (ep : Ep) (m : PMsg), (ep.begun m).log = ep.log ∧ (ep.begun m).cfg = ep.cfg := by
        intro ep m; unfold Ep.begun; split <;> exact ⟨rfl, rfl⟩
      have henq : ∀ (ep : Ep) (e : QEntry), (ep.enqueue e).log = ep.log ∧ (ep.enqueue e).cfg = ep.cfg := by
        intro ep e; unfold Ep.enqueue; split <;> exact ⟨rfl, rfl⟩
      have hquiet : ∀ {e}, Quiet e → ∀ i n t o, e ≠ Event.passed i n t o := by
        intro e he i n t o hh
        cases he <;> cases hh
      cases hm
      case txLost href1 =>
        refine ⟨(hbl _ _).2, ?_⟩
        intro i n t o hh
        simp only [Ep.logs, hbl, List.mem_append, List.mem_cons, List.not_mem_nil, or_false, reduceCtorEq, false_or,
          Event.passed.injEq] at hh
        rcases hh with (hh | ⟨_, _, _, rfl⟩) | hh
        · exact absurd hh (href href1 _ _ _ _)
        · exact .inr ⟨_, rfl⟩
        · exact .inl hh
      case txLostCb href1 =>
        refine ⟨(hbl _ _).2, ?_⟩
        intro i n t o hh
        simp only [Ep.logs, hbl, List.mem_append, List.mem_cons, List.not_mem_nil, or_false, reduceCtorEq, false_or,
          Event.passed.injEq] at hh
        rcases hh with (hh | ⟨_, _, _, rfl⟩) | hh
        · exact absurd hh (href href1 _ _ _ _)
        · exact .inr ⟨_, rfl⟩
        · exact .inl hh
      case heartbeat hl =>
        refine ⟨rfl, ?_⟩
        intro i n t o hh
        rcases List.mem_append.mp hh with hh | hh
        · rcases hl with rfl | ⟨o, ok, _, rfl⟩
          · cases hh
          · simp at hh
        · exact .inl hh
      case replied =>
        refine ⟨rfl, ?_⟩
        intro i n t o hh
        cases hh with
        | tail _ hh => exact .inl hh
      case quiet hq =>
        refine ⟨rfl, ?_⟩
        intro i n t o hh
        cases hh with
        | head => exact absurd rfl (hquiet hq _ _ _ _)
        | tail _ hh => exact .inl hh
      case timeout hl =>
        refine ⟨rfl, ?_⟩
        intro i n t o hh
        simp only [List.cons_append, List.mem_cons, List.mem_append, reduceCtorEq, false_or] at hh
        rcases hh with hh | hh
        · rcases hl with ⟨_, rfl⟩ | ⟨_, hl⟩
          · cases hh
          · exact absurd hh (href hl _ _ _ _)
        · exact .inl hh
      case timeoutCb hl _ _ _ _ _ _ =>
        refine ⟨rfl, ?_⟩
        intro i n t o hh
        simp only [List.cons_append, List.mem_cons, List.mem_append, reduceCtorEq, false_or] at hh
        rcases hh with hh | hh
        · rcases hl with ⟨_, rfl⟩ | ⟨_, hl⟩
          · cases hh
          · exact absurd hh (href hl _ _ _ _)
        · exact .inl hh
      case resend hl =>
        refine ⟨rfl, ?_⟩
        intro i n t o hh
        rcases List.mem_append.mp hh with hh | hh
        · rcases hl with ⟨rfl, _⟩ | ⟨o, ok, _, rfl⟩
          · cases hh
          · cases List.mem_singleton.mp hh
        · exact .inl hh
      case close =>
        refine ⟨rfl, ?_⟩
        intro i n t o hh
        simp only [Ep.closed, List.mem_append, List.mem_reverse, List.mem_flatten, List.mem_map] at hh
        rcases hh with ⟨l, ⟨e, _, rfl⟩, hh⟩ | hh
        · simp at hh
        · exact .inl hh
      all_goals
        refine ⟨by simp [Ep.logs, Ep.note, Ep.dropCtx, henq], ?_⟩
        intro i n t o hh
        simp only [Ep.logs, Ep.note, Ep.dropCtx, hbl, henq, List.cons_append, List.nil_append, List.mem_cons, reduceCtorEq, false_or,
          Event.passed.injEq] at hh
        first
          | exact .inl hh
          | (rcases hh with ⟨_, _, _, rfl⟩ | hh
             · exact .inr ⟨_, rfl⟩
             · exact .inl hh)
    intro id n1 t1 out i hp hi hlen
    rw [hx.1]
    rcases hx.2 _ _ _ _ hp with hp | ⟨m, rfl⟩
    · exact hI _ _ _ _ _ hp hi hlen
    · exact hout _ _ _ hi hlen
  · intro cfg n1 t1 keepResp unixTime now id n1' t1' out i hp
    cases hp with
    | tail _ h => cases h

theorem structOf_set {ok : IeVal → Prop} : ∀ (f : Fields) (ies : Struct IeVal) (i tag k) (v : IeVal),
    StructOf ok f ies → (entries f)[i]? = some (tag, once, .ie k) → v.kind = k → ok v →
    StructOf ok f (ies.set i [.leaf v])
  | .nil, _, i, _, _, _, _, h, _, _ => by simp [entries] at h
  | .cons _ _ _ _, [], _, _, _, _, hs, _, _, _ => by simp [StructOf] at hs
  | .cons t kd ty f, vs :: s, 0, tag, k, v, hs, h, hk, hv => by
    simp only [entries, List.getElem?_cons_zero, Option.some.injEq, Prod.mk.injEq] at h
    obtain ⟨_, rfl, rfl⟩ := h
    rw [StructOf] at hs
    rw [List.set_cons_zero, StructOf]
    refine ⟨⟨by simp [least], by simp [most]⟩, ?_, hs.2.2⟩
    intro x hx
    rw [List.mem_singleton.mp hx, ValOf]
    exact ⟨hk, hv⟩
  | .cons t kd ty f, vs :: s, i + 1, tag, k, v, hs, h, hk, hv => by
    rw [StructOf] at hs
    rw [List.set_cons_succ, StructOf]
    exact ⟨hs.1, hs.2.1, structOf_set f s i tag k v hs.2.2 (by simpa [entries] using h) hk hv⟩

/-- C59, on the wire: whenever a message with a Node ID, that was not encoded before, is handed to the socket, its
first transmission or a retransmission, the receiver decodes the configured Node ID, and all other IEs as the
caller set them. -/
theorem C59_on_the_wire_partial {ep ep' ep2 : Ep} (h : Reached ep) {m io} {a : App}
    (hstep : (Op.app (.tx m io a .done)).step ep = .ok ep')
    (hl : Later ep' ep2) {f i} (hf : message m.h.type = some f) (hi : m.nodeIdAt = some i)
    (hm : m.nodeIdAt = (membOfsOf m.h.type).2) (hfresh : m.encoded = none) (hg : GoodHdr m.h) (hs : GoodStruct f m.ies)
    (hcfg : InRange (.nodeId ep.cfg.nodeId)) {ies} (hies : ies = m.ies.set i [.leaf (.nodeId ep.cfg.nodeId)])
    (hroom : (msgOctets false m.h (structOctets f ies)).length ≤ 2048) :
    ∀ x ∈ transmissions ep.nextId ep2.log, x.1 = m.remote ∧
      ∀ rest, (HasRuleNames f ies → 0 ∈ rest) → ∃ d, decodeHeader (some (x.2 ++ rest)) x.2.length = .ok d ∧
        d.h.type = m.h.type ∧ d.nodeIdAt = some i ∧ decodeTlv d = .ok ies := by
  have h' : Reached ep' := .op _ h hstep
  have htx := step_tx hstep
  obtain ⟨l, hl1⟩ := tx_passed (run_goes a) htx
  obtain ⟨l2, hl2⟩ := hl.log h'
  have hp : Event.passed ep.nextId ep.n1 ep.t1 (ep.outgoing m) ∈ ep2.log := by
    rw [hl2, hl1]
    exact List.mem_append_right _ (List.mem_append_right _ (.head _))
  intro x hx
  obtain ⟨x1, x2⟩ := (C46_bounded_identical (hl.reached h') hp).2.1 x hx
  -- the message that was passed
  have hout : ∃ h2 : Hdr, GoodHdr h2 ∧ h2.type = m.h.type ∧
      (bodyOctets h2 (structOctets f ies)).length = (bodyOctets m.h (structOctets f ies)).length ∧
      (ep.outgoing m).h = h2 ∧ (ep.outgoing m).ies = ies ∧ (ep.outgoing m).encoded = none ∧
      (ep.outgoing m).remote = m.remote := by
    unfold Ep.outgoing
    by_cases hr : m.isResponse = true
    · rw [if_pos hr]
      refine ⟨m.h, hg, rfl, rfl, ?_⟩
      simp [PMsg.withNodeId, hi, hies, hfresh]
    · rw [if_neg hr]
      refine ⟨{ m.h with seq := (nextSeqNr ep.seq).toNat }, ⟨hg.version, hg.type, (C30_in_range _).2, hg.prio, hg.seid,
        hg.prioNeedsSeid⟩, rfl, ?_, ?_⟩
      · simp [bodyOctets, Spec.be]
      · simp [PMsg.withNodeId, hi, hies, hfresh]
  obtain ⟨h2, g1, g2, g3, g4, g5, g6, g7⟩ := hout
  refine ⟨x1.trans g7, ?_⟩
  have hent : (entries f)[i]? = some (Iei.nodeId, once, .ie .nodeId) := by
    have := (C34_accessors_exist m.h.type).2
    rw [← hm, hi] at this
    obtain ⟨f', hf', he⟩ := this
    rw [hf] at hf'
    cases hf'
    exact he
  have hgood : GoodStruct f ies := by
    rw [hies]
    exact structOf_set f m.ies i _ _ _ hs hent rfl hcfg
  have hml := msgOctets_length false h2 (structOctets f ies)
  have hml0 := msgOctets_length false m.h (structOctets f ies)
  have hbl := bodyOctets_length h2 (structOctets f ies)
  have hbl0 := bodyOctets_length m.h (structOctets f ies)
  have hhl : 8 ≤ headerLen h2.seidPresent := by cases h2.seidPresent <;> simp [headerLen]
  have hhl0 : 8 ≤ headerLen m.h.seidPresent := by cases m.h.seidPresent <;> simp [headerLen]
  obtain ⟨buf, b1, b2, b3⟩ := C19_message_round_trip h2 f ies 2048 (by rw [g2]; exact hf) g1 hgood (by omega) (by omega)
  have hx2 : x.2 = msgOctets false h2 (structOctets f ies) := by
    unfold PMsg.encode at x2
    rw [g6, g4, g5] at x2
    simp only [allocSize, b1, Out.ok.injEq] at x2
    rw [← x2, b2]
  rw [hx2]
  intro rest hrest
  have := decodeHeader_msgOctets false h2 (structOctets f ies) rest _ (good_carried g1) (by omega) (Nat.le_refl _)
  refine ⟨_, this, ?_, ?_, ?_⟩
  · rw [carried_of_good g1]; exact g2
  · show (membOfsOf h2.type).2 = _
    rw [g2, ← hm, hi]
  · exact decodeTlv_good h2 f ies (by rw [g2]; exact hf) hgood (by omega) _ (by simp [Hdr.carried]) rest rfl rfl hrest

/-- C32: the messages that the library makes itself - Heartbeat Requests and Responses, Association Setup Requests - are those of
osmo_pfcp_msg_alloc_tx_req() and osmo_pfcp_msg_alloc_tx_resp(), with IEs and callbacks set. -/
theorem C32_own_messages (remote : Sockaddr) (req : PMsg) (rts : Nat) (p : Peer) :
    (msgAllocTxReq remote 1).map (fun m => { m with ies := [[.leaf (.u32 rts)]] }) = some (heartbeatReq remote rts) ∧
    (msgAllocTxResp req 2).map (fun m => { m with ies := [[.leaf (.u32 rts)]] }) = some (heartbeatResp req rts) ∧
    (msgAllocTxReq p.remote 5).map (fun m => { m with ies := (assocReq p rts).ies, ctx := (assocReq p rts).ctx }) =
      some (assocReq p rts) := ⟨rfl, rfl, rfl⟩

/-- C32, on the wire: whenever the response to a received request is passed to osmo_pfcp_endpoint_tx(), it is only ever sent
to the sender of the request, and with the three sequence number octets that were received. -/
theorem C32_transmitted {ep ep' ep2 : Ep} (h : Reached ep) {m io} {a : App}
    (hstep : (Op.app (.tx m io a .done)).step ep = .ok ep') (hl : Later ep' ep2)
    {req : PMsg} {o rest : List UInt8} {d : DecHdr} (hd : decodeHeader (some (o ++ rest)) o.length = .ok d)
    (hreq : req.h = d.h) {t m0} (ht : t ∈ responseTypes) (hm0 : msgAllocTxResp req t = some m0)
    (hm : m.remote = m0.remote ∧ m.isResponse = m0.isResponse ∧ m.h.seq = m0.h.seq ∧ m.encoded = none) (hg : GoodHdr m.h) :
    ∀ x ∈ transmissions ep.nextId ep2.log, x.1 = req.remote ∧ seqOctets x.2 = seqOctets o := by
  obtain ⟨m1, h1, h2, h3, -, h4, -⟩ := C32_response_mirrors_request req t
  rw [hm0] at h1
  cases h1
  have h' : Reached ep' := .op _ h hstep
  have htx := step_tx hstep
  obtain ⟨out, hp, -, -, -, -, hr, -, hir, he, hh⟩ := C59_node_id_set htx
  rw [if_pos (hm.2.1.trans (h4.mpr ht))] at hh
  dsimp only [Ep.takeUses] at hp
  obtain ⟨l2, hl2⟩ := hl.log h'
  intro x hx
  obtain ⟨x1, x2⟩ := (C46_bounded_identical (hl.reached h') (by rw [hl2]; exact List.mem_append_right _ hp)).2.1 x hx
  refine ⟨x1.trans (hr.trans (hm.1.trans h2)), ?_⟩
  unfold PMsg.encode at x2
  rw [he, hm.2.2.2] at x2
  dsimp only at x2
  cases hb : msgEncode { b := ⟨allocSize, []⟩ } out.h out.ies with
  | ok buf =>
    rw [hb] at x2
    simp only [Out.ok.injEq] at x2
    have := (C32_encoded_sequence_number o rest d hd _ buf out.h (by rw [hh, hm.2.2.1, h3, hreq]) (by rw [hh]; exact hg)
      out.ies hb).2
    simpa [← x2] using this
  | _ => rw [hb] at x2; cases x2

set_option maxRecDepth 100000 in
/-- Example: a Session Deletion Request with sequence number 1 is received, and its response is sent. -/
example : ∃ d m0 ep, decodeHeader (some exDelOctets) 8 = .ok d ∧
    msgAllocTxResp { remote := exOther, rx := true, isResponse := false, h := d.h, ies := [] } 55 = some m0 ∧ 55 ∈ responseTypes ∧
    m0.encoded = none ∧ GoodHdr m0.h ∧ exec [.app (.bind true (.tx m0 true .done .done))] exEp = .ok ep ∧
    transmissions 0 ep.log = [(exOther, [32, 55, 0, 9, 0, 0, 1, 0, 0, 19, 0, 1, 0])] ∧
    seqOctets exDelOctets = [0, 0, 1] := by
  refine ⟨_, _, _, rfl, rfl, by decide, rfl, ?_, rfl, by rfl, by decide⟩
  exact ⟨by decide, by decide, by decide, by decide, by decide, by decide⟩

/-- C59 is not true of a message that was encoded before, e.g. by osmo_pfcp_endpoint_tx_data(): it is sent as it
was encoded then, with the Node ID (and sequence number) that it had. -/
theorem C59_encoded_before {ep ep' ep2 : Ep} (h : Reached ep) {m io} {a : App}
    (hstep : (Op.app (.tx m io a .done)).step ep = .ok ep')
    (hl : Later ep' ep2) {o} (ho : m.encoded = some o) : ∀ x ∈ transmissions ep.nextId ep2.log, x = (m.remote, o) := by
  have h' : Reached ep' := .op _ h hstep
  have htx := step_tx hstep
  obtain ⟨out, hp, -, -, -, -, hr, -, -, he, -⟩ := C59_node_id_set htx
  dsimp only [Ep.takeUses] at hp
  obtain ⟨l2, hl2⟩ := hl.log h'
  intro x hx
  obtain ⟨x1, x2⟩ := (C46_bounded_identical (hl.reached h') (by rw [hl2]; exact List.mem_append_right _ hp)).2.1 x hx
  unfold PMsg.encode at x2
  rw [he, ho] at x2
  cases x2
  exact Prod.ext (x1.trans hr) rfl

/-- An Association Release Request, with another Node ID. -/
def exRelease : PMsg :=
  { remote := exRemote, h := { version := 1, type := 9 }, nodeIdAt := some 0, ies := [[.leaf (.nodeId (.v4 (.inet 0x01020304 0)))]] }

/-- The hypotheses are met; the Node ID on the wire is that of the endpoint. -/
example : message exRelease.h.type = some (layout [ (Iei.nodeId, once, .ie .nodeId) ]) ∧
    exRelease.nodeIdAt = (membOfsOf exRelease.h.type).2 ∧ GoodHdr exRelease.h ∧ InRange (.nodeId exEp.cfg.nodeId) ∧
    ∃ ep, exec [.app (.bind true (.tx exRelease true .done .done))] exEp = .ok ep ∧
      transmissions 0 ep.log = [(exRemote, [32, 9, 0, 13, 0, 0, 1, 0, 0, 60, 0, 5, 0, 127, 0, 0, 2])] := by
  refine ⟨rfl, by decide, ⟨by decide, by decide, by decide, by decide, by decide, by decide⟩, ?_, ?_⟩
  · exact ⟨0x7f000002, by decide, rfl⟩
  · set_option maxRecDepth 100000 in exact ⟨_, rfl, rfl⟩

end Props
end Verif
